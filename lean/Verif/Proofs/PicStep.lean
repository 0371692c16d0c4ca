import Verif.Model.PicStep
import Verif.Spec.PicStep
import Verif.Proofs.SyncGlobal
import Verif.Props.Deposit
import Verif.Props.Fields
import Verif.Props.Maxwell
import Mathlib.Algebra.BigOperators.Ring.Finset
import Mathlib.Algebra.BigOperators.Fin
/-!
# Deposits on patch arrays, folded, are deposits on the undivided grid
-/
namespace Verif.PicStep
open Verif.Deposit Verif.Maxwell Verif.SyncFields Verif.DepositProps Verif.PicSpec Verif.Neighbors Finset

/-! ## one axis -/

/-- the stencil points with a non-zero value all lie in the array of `n` cells with `ng` guards -/
def Supp (n ng : Nat) (i0 : Int) (f : Nat → ℚ) : Prop :=
  ∀ i, i < 5 → f i ≠ 0 → -(ng : Int) ≤ i0 + ((i : Int) - 2) ∧ i0 + ((i : Int) - 2) < n + ng

theorem wrapIx_emod {N : Nat} {w : Int} (h1 : -(N : Int) ≤ w) (h2 : w < N) : wrapIx N w = w % N := by
  unfold wrapIx
  split
  · rw [Int.emod_eq_of_lt (by omega) (by omega)]
  · rw [← Int.add_emod_right, Int.emod_eq_of_lt (by omega) (by omega)]

theorem emod_window {N : Nat} {lo a b : Int} (ha : lo ≤ a) (ha' : a < lo + N) (hb : lo ≤ b) (hb' : b < lo + N)
    (h : a % N = b % N) : a = b := by
  have h1 : (N : Int) ∣ b - a := Int.ModEq.dvd h
  obtain ⟨k, hk⟩ := h1
  have : k = 0 := by
    by_contra hk0
    rcases lt_or_gt_of_ne hk0 with h' | h'
    · nlinarith
    · nlinarith
  subst this
  omega

/-- folding one axis of a patch array onto the ring of all cells -/
theorem fold1 {n ng N c : Nat} (hn : 0 < n) (hN : 0 < N) (i0 V : Int) (f : Nat → ℚ) (hs : Supp n ng i0 f) :
    (∑ w ∈ Finset.Ico (-(ng : Int)) (n + ng), if (c * n + w : Int) ≡ V [ZMOD (N : Int)]
      then proj (wrapIdx (n + 2 * ng) i0) f (wrapIx (n + 2 * ng) w) else 0) =
      proj (wrapIdx N (i0 + c * n)) f (V % (N : Int)) := by
  unfold proj
  have e : ∀ w : Int, (if (c * n + w : Int) ≡ V [ZMOD (N : Int)] then
      ∑ i ∈ range 5, (if wrapIdx (n + 2 * ng) i0 i = wrapIx (n + 2 * ng) w then f i else 0) else 0)
      = ∑ i ∈ range 5, if (c * n + w : Int) ≡ V [ZMOD (N : Int)] then
        (if wrapIdx (n + 2 * ng) i0 i = wrapIx (n + 2 * ng) w then f i else 0) else 0 := by
    intro w
    split
    · rfl
    · simp
  simp only [e]
  rw [sum_comm]
  refine sum_congr rfl fun i hi => ?_
  by_cases hf : f i = 0
  · rw [hf]; simp
  obtain ⟨s1, s2⟩ := hs i (mem_range.mp hi) hf
  have hw : ∀ w ∈ Finset.Ico (-(ng : Int)) (n + ng),
      (wrapIdx (n + 2 * ng) i0 i = wrapIx (n + 2 * ng) w ↔ w = i0 + ((i : Int) - 2)) := by
    intro w hw
    rw [mem_Ico] at hw
    rw [wrapIdx_eq _ (by omega), wrapIx_emod (by push_cast; omega) (by push_cast; omega)]
    constructor
    · intro h
      exact (emod_window (lo := -(ng : Int)) s1 (by push_cast; omega) hw.1 (by push_cast; omega) h).symm
    · rintro rfl; rfl
  rw [sum_eq_single_of_mem (i0 + ((i : Int) - 2)) (mem_Ico.mpr ⟨s1, s2⟩)]
  · rw [if_pos ((hw _ (mem_Ico.mpr ⟨s1, s2⟩)).mpr rfl), wrapIdx_eq _ hN]
    have : (c * n + (i0 + ((i : Int) - 2)) : Int) = i0 + c * n + ((i : Int) - 2) := by ring
    rw [this]
    rfl
  · intro w hw' hne
    rw [if_neg (fun h => hne ((hw w hw').mp h))]
    simp

theorem floor_shift (a : ℚ) (k : Int) : ⌊a + k + 1 / 2⌋ = ⌊a + 1 / 2⌋ + k := by
  rw [show a + k + 1 / 2 = a + 1 / 2 + k by ring, Int.floor_add_intCast]

theorem mkAxRef_shift (o a : ℚ) (k : Int) :
    mkAxRef (o + k) (a + k) = ⟨(mkAxRef o a).i0 + k, (mkAxRef o a).dcell, (mkAxRef o a).S0, (mkAxRef o a).S1⟩ := by
  unfold mkAxRef
  dsimp only
  rw [floor_shift, floor_shift]
  congr 1
  · ring
  · congr 1; push_cast; ring
  · congr 1
    · push_cast; ring
    · ring

/-- the axis of the undivided grid is the axis of the patch, moved by the cells before the patch -/
theorem axis_whole {n ng c N : Nat} {d : ℚ} (hd : 0 < d) (x v dt : ℚ) :
    axisOf ⟨N, d, 0⟩ x v dt = ⟨(axisOf (patchAxis n ng d c) x v dt).i0 + (c * n : Int),
      (axisOf (patchAxis n ng d c) x v dt).dcell, (axisOf (patchAxis n ng d c) x v dt).S0,
      (axisOf (patchAxis n ng d c) x v dt).S1⟩ := by
  unfold axisOf
  have hd' := hd.ne'
  have e1 : xOld ⟨N, d, 0⟩ x v dt / d = xOld (patchAxis n ng d c) x v dt / d + ((c * n : Int) : ℚ) := by
    unfold xOld patchAxis; push_cast; field_simp; ring
  have e2 : xAdv ⟨N, d, 0⟩ x v dt / d = xAdv (patchAxis n ng d c) x v dt / d + ((c * n : Int) : ℚ) := by
    unfold xAdv patchAxis; push_cast; field_simp; ring
  show mkAxRef (xOld ⟨N, d, 0⟩ x v dt / d) (xAdv ⟨N, d, 0⟩ x v dt / d) = _
  rw [e1, e2, mkAxRef_shift]
  rfl

theorem calcS_supp (δ : ℚ) {s : Int} {i : Nat} (hi : i < 5) (h : calcS δ s i ≠ 0) :
    s + 1 ≤ i ∧ (i : Int) ≤ s + 3 := by
  by_contra hc
  apply h
  unfold calcS
  have : i = 0 ∨ i = 1 ∨ i = 2 ∨ i = 3 ∨ i = 4 := by omega
  rcases this with rfl | rfl | rfl | rfl | rfl
  · show (if s = -1 then (1 : ℚ) else 0) * _ = 0
    rw [if_neg (by omega)]; ring
  · show (if s = -1 then (1 : ℚ) else 0) * _ + (if s = 0 then (1 : ℚ) else 0) * _ = 0
    rw [if_neg (by omega), if_neg (by omega)]; ring
  · show (if s = -1 then (1 : ℚ) else 0) * _ + (if s = 0 then (1 : ℚ) else 0) * _ + (if s = 1 then (1 : ℚ) else 0) * _ = 0
    rw [if_neg (by omega), if_neg (by omega), if_neg (by omega)]; ring
  · show (if s = 0 then (1 : ℚ) else 0) * _ + (if s = 1 then (1 : ℚ) else 0) * _ = 0
    rw [if_neg (by omega), if_neg (by omega)]; ring
  · show (if s = 1 then (1 : ℚ) else 0) * _ = 0
    rw [if_neg (by omega)]; ring

section
variable {n ng c : Nat} {d dt x v : ℚ} (hd : 0 < d) (hf : FitsAxis n ng c d dt x v)
include hd hf

theorem supp_floor :
    let o := xOld (patchAxis n ng d c) x v dt / d
    let a := xAdv (patchAxis n ng d c) x v dt / d
    (-(ng : Int) ≤ ⌊o + 1 / 2⌋ - 1 ∧ ⌊o + 1 / 2⌋ + 1 < n + ng) ∧
      (-(ng : Int) ≤ ⌊a + 1 / 2⌋ - 1 ∧ ⌊a + 1 / 2⌋ + 1 < n + ng) := by
  have hd' := hd.ne'
  have e1 : xOld (patchAxis n ng d c) x v dt / d = (x - v * dt / 2) / d - c * n := by
    unfold xOld patchAxis; field_simp
  have e2 : xAdv (patchAxis n ng d c) x v dt / d = (x + v * dt / 2) / d - c * n := by
    unfold xAdv patchAxis; field_simp
  dsimp only
  rw [e1, e2]
  exact ⟨hf.2.1, hf.2.2⟩

theorem supp_S0 : Supp n ng (axisOf (patchAxis n ng d c) x v dt).i0 (axisOf (patchAxis n ng d c) x v dt).S0 := by
  intro i hi h
  have := calcS_supp _ hi h
  obtain ⟨⟨a, b⟩, _⟩ := supp_floor hd hf
  change -(ng : Int) ≤ ⌊_ + 1 / 2⌋ + ((i : Int) - 2) ∧ ⌊_ + 1 / 2⌋ + ((i : Int) - 2) < n + ng
  change -(ng : Int) ≤ ⌊xOld (patchAxis n ng d c) x v dt / (patchAxis n ng d c).d + 1 / 2⌋ - 1 at a
  change ⌊xOld (patchAxis n ng d c) x v dt / (patchAxis n ng d c).d + 1 / 2⌋ + 1 < n + ng at b
  constructor <;> omega

theorem supp_S1 : Supp n ng (axisOf (patchAxis n ng d c) x v dt).i0 (axisOf (patchAxis n ng d c) x v dt).S1 := by
  intro i hi h
  have := calcS_supp _ hi h
  obtain ⟨_, ⟨a, b⟩⟩ := supp_floor hd hf
  change -(ng : Int) ≤ ⌊_ + 1 / 2⌋ + ((i : Int) - 2) ∧ ⌊_ + 1 / 2⌋ + ((i : Int) - 2) < n + ng
  change -(ng : Int) ≤ ⌊xAdv (patchAxis n ng d c) x v dt / (patchAxis n ng d c).d + 1 / 2⌋ - 1 at a
  change ⌊xAdv (patchAxis n ng d c) x v dt / (patchAxis n ng d c).d + 1 / 2⌋ + 1 < n + ng at b
  constructor <;> omega
end

theorem supp_DS {n ng : Nat} {ax : Ax} (h0 : Supp n ng ax.i0 ax.S0) (h1 : Supp n ng ax.i0 ax.S1) :
    Supp n ng ax.i0 ax.DS := by
  intro i hi h
  by_cases a : ax.S1 i = 0
  · exact h0 i hi (fun b => h (by unfold Ax.DS; rw [a, b]; ring))
  · exact h1 i hi a

theorem supp_mid {n ng : Nat} {ax : Ax} (h0 : Supp n ng ax.i0 ax.S0) (h1 : Supp n ng ax.i0 ax.S1) :
    Supp n ng ax.i0 ax.mid := by
  intro i hi h
  by_cases a : ax.S1 i = 0
  · exact h0 i hi (fun b => h (by unfold Ax.mid Ax.DS; rw [a, b]; ring))
  · exact h1 i hi a

theorem supp_cum {n ng : Nat} {i0 : Int} {f : Nat → ℚ} (h : Supp n ng i0 f) (hs : ∑ i ∈ range 5, f i = 0) :
    Supp n ng i0 (cum f) := by
  intro i hi hc
  have h1 : ∃ j ∈ range (i + 1), f j ≠ 0 := exists_ne_zero_of_sum_ne_zero hc
  obtain ⟨j, hj, hj0⟩ := h1
  have h2 : ∑ j ∈ Ico (i + 1) 5, f j ≠ 0 := by
    intro h0
    have := sum_range_add_sum_Ico f (show i + 1 ≤ 5 by omega)
    apply hc
    unfold cum
    linarith
  obtain ⟨l, hl, hl0⟩ := exists_ne_zero_of_sum_ne_zero h2
  rw [mem_range] at hj
  rw [mem_Ico] at hl
  have a := h j (by omega) hj0
  have b := h l hl.2 hl0
  constructor <;> omega

/-! ## all axes -/

/-- what the cells of one patch selected by `T` contribute -/
def foldTo {k : Nat} (n : Fin k → Nat) (ng : Nat) (T : Fin k → Int → Bool) (A : Arr k) : ℚ :=
  ∑ w ∈ (allCells n ng).filter (fun w => ∀ a, T a (w a) = true), A (index n ng w)

/-- on one axis, the cells selected by `T` collect what a deposit that reaches at most `m` cells beyond the patch adds in
cell `V` of an axis of `M` cells, on which the patch begins at cell `o` -/
def FoldAxis (n ng m M : Nat) (o V : Int) (T : Int → Bool) : Prop :=
  ∀ i0 f, Supp n m i0 f → (∑ w ∈ Finset.Ico (-(ng : Int)) (n + ng), if T w = true
      then proj (wrapIdx (n + 2 * ng) i0) f (wrapIx (n + 2 * ng) w) else 0) = proj (wrapIdx M (i0 + o)) f V

theorem foldAxis_ring {n ng N c : Nat} (hn : 0 < n) (hN : 0 < N) (V : Int) :
    FoldAxis n ng ng N (c * n) (V % (N : Int)) fun w => decide ((c * n + w : Int) ≡ V [ZMOD (N : Int)]) := by
  intro i0 f hs
  simp only [decide_eq_true_eq]
  exact fold1 hn hN i0 V f hs

theorem foldAxis_open {n ng np c m : Nat} (hn : 0 < n) (hm : m ≤ ng) (hc : c < np) {V : Int} (h1 : -(m : Int) ≤ V)
    (h2 : V < np * n + m) :
    FoldAxis n ng m (np * n + 2 * m) (c * n) (V % ((np * n + 2 * m : Nat) : Int)) fun w => decide ((c * n + w : Int) = V) := by
  intro i0 f hs
  simp only [decide_eq_true_eq]
  have hs' : Supp n ng i0 f := fun i hi hf => by have := hs i hi hf; constructor <;> omega
  have hnp : 0 < np * n := Nat.mul_pos (by omega) hn
  refine Eq.trans (sum_congr rfl fun w hw => ?_) (fold1 hn (by omega : 0 < np * n + 2 * m) i0 V f hs')
  rw [mem_Ico] at hw
  by_cases h0 : proj (wrapIdx (n + 2 * ng) i0) f (wrapIx (n + 2 * ng) w) = 0
  · rw [h0]; simp
  have hin : -(m : Int) ≤ w ∧ w < n + m := by
    unfold proj at h0
    obtain ⟨i, hi, hne⟩ := exists_ne_zero_of_sum_ne_zero h0
    split at hne
    · rename_i he
      obtain ⟨a, b⟩ := hs i (mem_range.mp hi) hne
      obtain ⟨a', b'⟩ := hs' i (mem_range.mp hi) hne
      rw [wrapIdx_eq _ (by omega), wrapIx_emod (by push_cast; omega) (by push_cast; omega)] at he
      have := emod_window (lo := -(ng : Int)) a' (by push_cast; omega) hw.1 (by push_cast; omega) he
      omega
    · exact absurd rfl hne
  have hk1 : (0 : Int) ≤ c * n := by positivity
  have hk2 : ((c : Int) + 1) * n ≤ np * n := mul_le_mul_of_nonneg_right (by omega) (by omega)
  have : (c * n + w : Int) = V ↔ (c * n + w : Int) ≡ V [ZMOD ((np * n + 2 * m : Nat) : Int)] := by
    constructor
    · rintro rfl; rfl
    · intro h
      exact emod_window (N := np * n + 2 * m) (lo := -(m : Int)) (by omega) (by push_cast; nlinarith) h1 (by push_cast; omega) h
  simp only [this]

theorem foldTo_prod {k : Nat} {n : Fin k → Nat} {ng : Nat} {mg M : Fin k → Nat} {o V : Fin k → Int} {T : Fin k → Int → Bool}
    (h : ∀ a, FoldAxis (n a) ng (mg a) (M a) (o a) (V a) (T a)) (i0 : Fin k → Int) (f : Fin k → Nat → ℚ)
    (hs : ∀ a, Supp (n a) (mg a) (i0 a) (f a)) :
    foldTo n ng T (fun l => ∏ a, proj (wrapIdx (n a + 2 * ng) (i0 a)) (f a) (l a)) =
      ∏ a, proj (wrapIdx (M a) (i0 a + o a)) (f a) (V a) := by
  have h1 : ∀ a, proj (wrapIdx (M a) (i0 a + o a)) (f a) (V a) = _ := fun a => (h a (i0 a) (f a) (hs a)).symm
  simp only [h1]
  rw [Finset.prod_univ_sum]
  unfold foldTo
  rw [Finset.sum_filter]
  refine sum_congr rfl fun w _ => ?_
  rw [Finset.prod_ite_zero]
  simp only [mem_univ, true_implies]
  rfl

theorem foldTo_add {k : Nat} {n : Fin k → Nat} {ng : Nat} {T : Fin k → Int → Bool} (A B : Arr k) :
    foldTo n ng T (fun l => A l + B l) = foldTo n ng T A + foldTo n ng T B := sum_add_distrib

theorem foldTo_smul {k : Nat} {n : Fin k → Nat} {ng : Nat} {T : Fin k → Int → Bool} (r : ℚ)
    (A : Arr k) : foldTo n ng T (fun l => r * A l) = r * foldTo n ng T A := (mul_sum _ _ _).symm

theorem foldTo_zero {k : Nat} {n : Fin k → Nat} {ng : Nat} {T : Fin k → Int → Bool} :
    foldTo n ng T (fun _ => 0) = 0 := sum_const_zero

/-! ## one particle, 2D -/

/-- deposition of one macro particle -/
def dep2 (gx gy : Grid1) (dt : ℚ) (acc : Acc 2) (m : Macro2) : Acc 2 := deposit2 gx gy dt m.q m.x m.y m.mom acc

/-- what one macro particle adds -/
def inc2 (gx gy : Grid1) (dt : ℚ) (m : Macro2) (d : Fin 4) : Arr 2 := field (dep2 gx gy dt zeroAcc m) d

/-- closed form of what one particle adds to array `d` -/
def closed2 (gx gy : Grid1) (dt : ℚ) (m : Macro2) : Fin 4 → Arr 2 :=
  let ax := axisOf gx m.x m.mom.vx dt
  let ay := axisOf gy m.y m.mom.vy dt
  let px := proj (wrapIdx gx.n ax.i0)
  let py := proj (wrapIdx gy.n ay.i0)
  let Q := m.q * m.mom.w / (gx.d * gy.d)
  ![fun l => - (Q / dt * gx.d) * (px (cum ax.DS) (l 0) * py ay.mid (l 1)),
    fun l => - (Q / dt * gy.d) * (px ax.mid (l 0) * py (cum ay.DS) (l 1)),
    fun l => Q * m.mom.vz * (px ax.mid (l 0) * py ay.mid (l 1))
      + Q * m.mom.vz * (1 / 12) * (px ax.DS (l 0) * py ay.DS (l 1)),
    fun l => Q * (px ax.S1 (l 0) * py ay.S1 (l 1))]

theorem dep2_closed {gx gy : Grid1} (hgx : GridOK gx) (hgy : GridOK gy) {dt : ℚ} (hdt : dt ≠ 0) {m : Macro2}
    (cx : |m.mom.vx * dt| ≤ gx.d) (cy : |m.mom.vy * dt| ≤ gy.d) (acc : Acc 2) (d : Fin 4) (l : Fin 2 → Int) :
    field (dep2 gx gy dt acc m) d l = field acc d l + closed2 gx gy dt m d l := by
  have D := deposit2_adds gx gy hgx hgy dt m.q m.x m.y m.mom hdt cx cy acc l
  obtain ⟨h0, h1, h2, h3⟩ := D
  match d with
  | 0 =>
    show (deposit2 gx gy dt m.q m.x m.y m.mom acc).jx l = acc.jx l + - (_ / dt * gx.d) * _
    rw [h0]; ring
  | 1 =>
    show (deposit2 gx gy dt m.q m.x m.y m.mom acc).jy l = acc.jy l + - (_ / dt * gy.d) * _
    rw [h1]; ring
  | 2 =>
    show (deposit2 gx gy dt m.q m.x m.y m.mom acc).jz l = acc.jz l + (_ * m.mom.vz * _ + _ * m.mom.vz * (1 / 12) * _)
    rw [h2]; ring
  | 3 =>
    show (deposit2 gx gy dt m.q m.x m.y m.mom acc).rho l = acc.rho l + _ * _
    rw [h3]

theorem inc2_eq {gx gy : Grid1} (hgx : GridOK gx) (hgy : GridOK gy) {dt : ℚ} (hdt : dt ≠ 0) {m : Macro2}
    (cx : |m.mom.vx * dt| ≤ gx.d) (cy : |m.mom.vy * dt| ≤ gy.d) (d : Fin 4) :
    inc2 gx gy dt m d = closed2 gx gy dt m d := by
  funext l
  unfold inc2
  rw [dep2_closed hgx hgy hdt cx cy]
  match d with
  | 0 => exact zero_add _
  | 1 => exact zero_add _
  | 2 => exact zero_add _
  | 3 => exact zero_add _

theorem dep2_fold {gx gy : Grid1} (hgx : GridOK gx) (hgy : GridOK gy) {dt : ℚ} (hdt : dt ≠ 0) (ms : List Macro2)
    (h : ∀ m ∈ ms, |m.mom.vx * dt| ≤ gx.d ∧ |m.mom.vy * dt| ≤ gy.d) (acc : Acc 2) (d : Fin 4) (l : Fin 2 → Int) :
    field (ms.foldl (dep2 gx gy dt) acc) d l = field acc d l + (ms.map fun m => closed2 gx gy dt m d l).sum := by
  induction ms generalizing acc with
  | nil => simp
  | cons m ms ih =>
    obtain ⟨cx, cy⟩ := h m List.mem_cons_self
    rw [List.foldl_cons, ih (fun m' hm => h m' (List.mem_cons_of_mem _ hm)), dep2_closed hgx hgy hdt cx cy,
      List.map_cons, List.sum_cons]
    ring

theorem depositPatch2_fold (gx gy : Grid1) (dt q : ℚ) (ps : List Part2) (acc : Acc 2) :
    depositPatch2 gx gy dt q ps acc = (ps.filterMap (macro2 q)).foldl (dep2 gx gy dt) acc := by
  unfold depositPatch2
  induction ps generalizing acc with
  | nil => rfl
  | cons p ps ih =>
    rw [List.foldl_cons, ih]
    obtain ⟨x, y, m, dd⟩ := p
    cases dd with
    | true => rfl
    | false => cases x with
      | nan => rfl
      | val x => cases y with
        | nan => rfl
        | val y => rfl

theorem depositAll2_fold (gx gy : Grid1) (dt : ℚ) (sp : List (ℚ × List Part2)) :
    depositAll2 gx gy dt sp = (living2 sp).foldl (dep2 gx gy dt) zeroAcc := by
  unfold depositAll2
  generalize (zeroAcc : Acc 2) = acc
  induction sp generalizing acc with
  | nil => rfl
  | cons s sp ih =>
    rw [List.foldl_cons, ih, depositPatch2_fold]
    unfold living2
    rw [List.flatMap_cons, List.foldl_append]

theorem prod2 (f : Fin 2 → ℚ) : ∏ a, f a = f 0 * f 1 := Fin.prod_univ_two f

/-- folding the deposit of one particle on its patch gives its deposit on the undivided grid -/
theorem fold_closed2 {n c mg M : Fin 2 → Nat} {ng : Nat} {T : Fin 2 → Int → Bool} {V : Fin 2 → Int}
    (h : ∀ a, FoldAxis (n a) ng (mg a) (M a) (c a * n a) (V a) (T a)) {dd : Fin 2 → ℚ}
    (hd : ∀ a, 0 < dd a) {dt : ℚ} {m : Macro2} (hx : FitsAxis (n 0) (mg 0) (c 0) (dd 0) dt m.x m.mom.vx)
    (hy : FitsAxis (n 1) (mg 1) (c 1) (dd 1) dt m.y m.mom.vy) (d : Fin 4) :
    foldTo n ng T (closed2 (patchAxis (n 0) ng (dd 0) (c 0)) (patchAxis (n 1) ng (dd 1) (c 1)) dt m d) =
      closed2 ⟨M 0, dd 0, 0⟩ ⟨M 1, dd 1, 0⟩ dt m d V := by
  have gx : 0 < (patchAxis (n 0) ng (dd 0) (c 0)).d := hd 0
  have gy : 0 < (patchAxis (n 1) ng (dd 1) (c 1)).d := hd 1
  have ox : AxOK (axisOf (patchAxis (n 0) ng (dd 0) (c 0)) m.x m.mom.vx dt) := mkAxRef_ok (cfl_axis _ gx _ _ _ hx.1)
  have oy : AxOK (axisOf (patchAxis (n 1) ng (dd 1) (c 1)) m.y m.mom.vy dt) := mkAxRef_ok (cfl_axis _ gy _ _ _ hy.1)
  have x0 : Supp (n 0) (mg 0) (axisOf (patchAxis (n 0) ng (dd 0) (c 0)) m.x m.mom.vx dt).i0 (axisOf (patchAxis (n 0) ng (dd 0) (c 0)) m.x m.mom.vx dt).S0 := supp_S0 (hd 0) hx
  have x1 : Supp (n 0) (mg 0) (axisOf (patchAxis (n 0) ng (dd 0) (c 0)) m.x m.mom.vx dt).i0 (axisOf (patchAxis (n 0) ng (dd 0) (c 0)) m.x m.mom.vx dt).S1 := supp_S1 (hd 0) hx
  have y0 : Supp (n 1) (mg 1) (axisOf (patchAxis (n 1) ng (dd 1) (c 1)) m.y m.mom.vy dt).i0 (axisOf (patchAxis (n 1) ng (dd 1) (c 1)) m.y m.mom.vy dt).S0 := supp_S0 (hd 1) hy
  have y1 : Supp (n 1) (mg 1) (axisOf (patchAxis (n 1) ng (dd 1) (c 1)) m.y m.mom.vy dt).i0 (axisOf (patchAxis (n 1) ng (dd 1) (c 1)) m.y m.mom.vy dt).S1 := supp_S1 (hd 1) hy
  unfold closed2
  rw [axis_whole (n := n 0) (ng := ng) (c := c 0) (hd 0), axis_whole (n := n 1) (ng := ng) (c := c 1) (hd 1)]
  dsimp only
  generalize hax : axisOf (patchAxis (n 0) ng (dd 0) (c 0)) m.x m.mom.vx dt = ax at *
  generalize hay : axisOf (patchAxis (n 1) ng (dd 1) (c 1)) m.y m.mom.vy dt = ay at *
  have key : ∀ f g, Supp (n 0) (mg 0) ax.i0 f → Supp (n 1) (mg 1) ay.i0 g →
      foldTo n ng T (fun l => proj (wrapIdx (n 0 + 2 * ng) ax.i0) f (l 0) * proj (wrapIdx (n 1 + 2 * ng) ay.i0) g (l 1))
      = proj (wrapIdx (M 0) (ax.i0 + (c 0 * n 0 : Int))) f (V 0) * proj (wrapIdx (M 1) (ay.i0 + (c 1 * n 1 : Int))) g (V 1) := by
    intro f g hf hg
    have := foldTo_prod h ![ax.i0, ay.i0] ![f, g] (fun a => by
      match a with
      | 0 => exact hf
      | 1 => exact hg)
    simp only [prod2] at this
    exact this
  match d with
  | 0 =>
    show foldTo n ng T (fun l => _ * (proj (wrapIdx (n 0 + 2 * ng) ax.i0) (cum ax.DS) (l 0)
      * proj (wrapIdx (n 1 + 2 * ng) ay.i0) ay.mid (l 1))) = _ * _
    rw [foldTo_smul, key _ _ (supp_cum (supp_DS x0 x1) ox.sumDS) (supp_mid y0 y1)]
    rfl
  | 1 =>
    show foldTo n ng T (fun l => _ * (proj (wrapIdx (n 0 + 2 * ng) ax.i0) ax.mid (l 0)
      * proj (wrapIdx (n 1 + 2 * ng) ay.i0) (cum ay.DS) (l 1))) = _ * _
    rw [foldTo_smul, key _ _ (supp_mid x0 x1) (supp_cum (supp_DS y0 y1) oy.sumDS)]
    rfl
  | 2 =>
    show foldTo n ng T (fun l => _ * (proj (wrapIdx (n 0 + 2 * ng) ax.i0) ax.mid (l 0)
      * proj (wrapIdx (n 1 + 2 * ng) ay.i0) ay.mid (l 1)) + _ * (proj (wrapIdx (n 0 + 2 * ng) ax.i0) ax.DS (l 0)
      * proj (wrapIdx (n 1 + 2 * ng) ay.i0) ay.DS (l 1))) = _ * _ + _ * _
    rw [foldTo_add, foldTo_smul, foldTo_smul, key _ _ (supp_mid x0 x1) (supp_mid y0 y1),
      key _ _ (supp_DS x0 x1) (supp_DS y0 y1)]
    rfl
  | 3 =>
    show foldTo n ng T (fun l => _ * (proj (wrapIdx (n 0 + 2 * ng) ax.i0) ax.S1 (l 0)
      * proj (wrapIdx (n 1 + 2 * ng) ay.i0) ay.S1 (l 1))) = _ * _
    rw [foldTo_smul, key _ _ x1 y1]
    rfl

theorem foldTo_list {k : Nat} {n : Fin k → Nat} {ng : Nat} {T : Fin k → Int → Bool} {M : Type}
    (ms : List M) (F : M → Arr k) (G : M → ℚ) (h : ∀ m ∈ ms, foldTo n ng T (F m) = G m) :
    foldTo n ng T (fun l => (ms.map fun m => F m l).sum) = (ms.map G).sum := by
  induction ms with
  | nil => exact foldTo_zero
  | cons m ms ih =>
    simp only [List.map_cons, List.sum_cons]
    rw [foldTo_add, ih (fun m' hm => h m' (List.mem_cons_of_mem _ hm)), h m List.mem_cons_self]

/-! ## one particle, 3D -/

/-- deposition of one macro particle by the reference routine -/
def dep3 (gx gy gz : Grid1) (dt : ℚ) (acc : Acc 3) (m : Macro3) : Acc 3 :=
  deposit3Ref gx gy gz dt m.q m.x m.y m.z m.mom acc

/-- deposition of one macro particle by the routine of the unified pusher, which wraps indices -/
def dep3Fast (gx gy gz : Grid1) (dt : ℚ) (acc : Acc 3) (m : Macro3) : Acc 3 :=
  deposit3Fast gx gy gz dt m.q m.x m.y m.z m.mom acc

/-- product of three per-axis deposits -/
def tri (px py pz : (Nat → ℚ) → Int → ℚ) (f g h : Nat → ℚ) (l : Fin 3 → Int) : ℚ := px f (l 0) * py g (l 1) * pz h (l 2)

/-- closed form of what one particle adds to array `d` -/
def closed3 (gx gy gz : Grid1) (dt : ℚ) (m : Macro3) : Fin 4 → Arr 3 :=
  let ax := axisOf gx m.x m.mom.vx dt
  let ay := axisOf gy m.y m.mom.vy dt
  let az := axisOf gz m.z m.mom.vz dt
  let T := tri (proj (wrapIdx gx.n ax.i0)) (proj (wrapIdx gy.n ay.i0)) (proj (wrapIdx gz.n az.i0))
  let Q := m.q * m.mom.w / (gx.d * gy.d * gz.d)
  ![fun l => - (Q / dt * gx.d) * (1/3 * T (cum ax.DS) ay.S0 az.S0 l + 1/6 * T (cum ax.DS) ay.S1 az.S0 l
      + 1/6 * T (cum ax.DS) ay.S0 az.S1 l + 1/3 * T (cum ax.DS) ay.S1 az.S1 l),
    fun l => - (Q / dt * gy.d) * (1/3 * T ax.S0 (cum ay.DS) az.S0 l + 1/6 * T ax.S1 (cum ay.DS) az.S0 l
      + 1/6 * T ax.S0 (cum ay.DS) az.S1 l + 1/3 * T ax.S1 (cum ay.DS) az.S1 l),
    fun l => - (Q / dt * gz.d) * (1/3 * T ax.S0 ay.S0 (cum az.DS) l + 1/6 * T ax.S1 ay.S0 (cum az.DS) l
      + 1/6 * T ax.S0 ay.S1 (cum az.DS) l + 1/3 * T ax.S1 ay.S1 (cum az.DS) l),
    fun l => Q * T ax.S1 ay.S1 az.S1 l]

theorem adds3_closed {gx gy gz : Grid1} {dt : ℚ} {m : Macro3} {D : Acc 3 → Acc 3}
    (hD : Adds3 gx gy gz dt m.q m.x m.y m.z m.mom D) (acc : Acc 3) (d : Fin 4) (l : Fin 3 → Int) :
    field (D acc) d l = field acc d l + closed3 gx gy gz dt m d l := by
  obtain ⟨h0, h1, h2, h3⟩ := hD acc l
  match d with
  | 0 =>
    show (D acc).jx l = acc.jx l + - (_ / dt * gx.d) * (1/3 * (_ * _ * _) + 1/6 * (_ * _ * _) + 1/6 * (_ * _ * _) + 1/3 * (_ * _ * _))
    rw [h0]; unfold transW; ring
  | 1 =>
    show (D acc).jy l = acc.jy l + - (_ / dt * gy.d) * (1/3 * (_ * _ * _) + 1/6 * (_ * _ * _) + 1/6 * (_ * _ * _) + 1/3 * (_ * _ * _))
    rw [h1]; unfold transW; ring
  | 2 =>
    show (D acc).jz l = acc.jz l + - (_ / dt * gz.d) * (1/3 * (_ * _ * _) + 1/6 * (_ * _ * _) + 1/6 * (_ * _ * _) + 1/3 * (_ * _ * _))
    rw [h2]; unfold transW; ring
  | 3 =>
    show (D acc).rho l = acc.rho l + _ * _
    rw [h3]; rfl

theorem dep3_fold {gx gy gz : Grid1} {dt : ℚ} {D : Acc 3 → Macro3 → Acc 3} (ms : List Macro3)
    (h : ∀ m ∈ ms, Adds3 gx gy gz dt m.q m.x m.y m.z m.mom (fun acc => D acc m)) (acc : Acc 3) (d : Fin 4)
    (l : Fin 3 → Int) :
    field (ms.foldl D acc) d l = field acc d l + (ms.map fun m => closed3 gx gy gz dt m d l).sum := by
  induction ms generalizing acc with
  | nil => simp
  | cons m ms ih =>
    rw [List.foldl_cons, ih (fun m' hm => h m' (List.mem_cons_of_mem _ hm)), adds3_closed (h m List.mem_cons_self),
      List.map_cons, List.sum_cons]
    ring

theorem depositPatch3_fold (gx gy gz : Grid1) (dt q : ℚ) (ps : List Part3) (acc : Acc 3) :
    depositPatch3 gx gy gz dt q ps acc = (ps.filterMap (macro3 q)).foldl (dep3 gx gy gz dt) acc := by
  unfold depositPatch3
  induction ps generalizing acc with
  | nil => rfl
  | cons p ps ih =>
    rw [List.foldl_cons, ih]
    obtain ⟨x, y, z, m, dd⟩ := p
    cases dd with
    | true => rfl
    | false => cases x with
      | nan => rfl
      | val x => cases y with
        | nan => rfl
        | val y => cases z with
          | nan => rfl
          | val z => rfl

theorem depositAll3_fold (gx gy gz : Grid1) (dt : ℚ) (sp : List (ℚ × List Part3)) :
    depositAll3 gx gy gz dt sp = (living3 sp).foldl (dep3 gx gy gz dt) zeroAcc := by
  unfold depositAll3
  generalize (zeroAcc : Acc 3) = acc
  induction sp generalizing acc with
  | nil => rfl
  | cons s sp ih =>
    rw [List.foldl_cons, ih, depositPatch3_fold]
    unfold living3
    rw [List.flatMap_cons, List.foldl_append]

theorem fits_of {n ng c : Nat} {d dt x v : ℚ} (hn : 0 < n) (hng : 1 ≤ ng) (hd : 0 < d)
    (hf : FitsAxis n ng c d dt x v) : Fits (patchAxis n ng d c) x v dt := by
  obtain ⟨⟨a, b⟩, _⟩ := supp_floor hd hf
  unfold Fits
  rw [← old_eq]
  change -(ng : Int) ≤ ⌊xOld (patchAxis n ng d c) x v dt / (patchAxis n ng d c).d + 1 / 2⌋ - 1 at a
  change ⌊xOld (patchAxis n ng d c) x v dt / (patchAxis n ng d c).d + 1 / 2⌋ + 1 < n + ng at b
  have : (patchAxis n ng d c).n = n + 2 * ng := rfl
  rw [this]
  push_cast
  constructor <;> omega

set_option maxHeartbeats 1000000 in
theorem fold_closed3 {n c mg M : Fin 3 → Nat} {ng : Nat} {T : Fin 3 → Int → Bool} {V : Fin 3 → Int}
    (hF : ∀ a, FoldAxis (n a) ng (mg a) (M a) (c a * n a) (V a) (T a)) {dd : Fin 3 → ℚ}
    (hd : ∀ a, 0 < dd a) {dt : ℚ} {m : Macro3} (hx : FitsAxis (n 0) (mg 0) (c 0) (dd 0) dt m.x m.mom.vx)
    (hy : FitsAxis (n 1) (mg 1) (c 1) (dd 1) dt m.y m.mom.vy) (hz : FitsAxis (n 2) (mg 2) (c 2) (dd 2) dt m.z m.mom.vz)
    (d : Fin 4) :
    foldTo n ng T (closed3 (patchAxis (n 0) ng (dd 0) (c 0)) (patchAxis (n 1) ng (dd 1) (c 1))
      (patchAxis (n 2) ng (dd 2) (c 2)) dt m d) =
      closed3 ⟨M 0, dd 0, 0⟩ ⟨M 1, dd 1, 0⟩ ⟨M 2, dd 2, 0⟩ dt m d V := by
  have gx : 0 < (patchAxis (n 0) ng (dd 0) (c 0)).d := hd 0
  have gy : 0 < (patchAxis (n 1) ng (dd 1) (c 1)).d := hd 1
  have gz : 0 < (patchAxis (n 2) ng (dd 2) (c 2)).d := hd 2
  have ox : AxOK (axisOf (patchAxis (n 0) ng (dd 0) (c 0)) m.x m.mom.vx dt) := mkAxRef_ok (cfl_axis _ gx _ _ _ hx.1)
  have oy : AxOK (axisOf (patchAxis (n 1) ng (dd 1) (c 1)) m.y m.mom.vy dt) := mkAxRef_ok (cfl_axis _ gy _ _ _ hy.1)
  have oz : AxOK (axisOf (patchAxis (n 2) ng (dd 2) (c 2)) m.z m.mom.vz dt) := mkAxRef_ok (cfl_axis _ gz _ _ _ hz.1)
  have x0 : Supp (n 0) (mg 0) (axisOf (patchAxis (n 0) ng (dd 0) (c 0)) m.x m.mom.vx dt).i0 (axisOf (patchAxis (n 0) ng (dd 0) (c 0)) m.x m.mom.vx dt).S0 := supp_S0 (hd 0) hx
  have x1 : Supp (n 0) (mg 0) (axisOf (patchAxis (n 0) ng (dd 0) (c 0)) m.x m.mom.vx dt).i0 (axisOf (patchAxis (n 0) ng (dd 0) (c 0)) m.x m.mom.vx dt).S1 := supp_S1 (hd 0) hx
  have y0 : Supp (n 1) (mg 1) (axisOf (patchAxis (n 1) ng (dd 1) (c 1)) m.y m.mom.vy dt).i0 (axisOf (patchAxis (n 1) ng (dd 1) (c 1)) m.y m.mom.vy dt).S0 := supp_S0 (hd 1) hy
  have y1 : Supp (n 1) (mg 1) (axisOf (patchAxis (n 1) ng (dd 1) (c 1)) m.y m.mom.vy dt).i0 (axisOf (patchAxis (n 1) ng (dd 1) (c 1)) m.y m.mom.vy dt).S1 := supp_S1 (hd 1) hy
  have z0 : Supp (n 2) (mg 2) (axisOf (patchAxis (n 2) ng (dd 2) (c 2)) m.z m.mom.vz dt).i0 (axisOf (patchAxis (n 2) ng (dd 2) (c 2)) m.z m.mom.vz dt).S0 := supp_S0 (hd 2) hz
  have z1 : Supp (n 2) (mg 2) (axisOf (patchAxis (n 2) ng (dd 2) (c 2)) m.z m.mom.vz dt).i0 (axisOf (patchAxis (n 2) ng (dd 2) (c 2)) m.z m.mom.vz dt).S1 := supp_S1 (hd 2) hz
  unfold closed3
  rw [axis_whole (n := n 0) (ng := ng) (c := c 0) (hd 0), axis_whole (n := n 1) (ng := ng) (c := c 1) (hd 1),
    axis_whole (n := n 2) (ng := ng) (c := c 2) (hd 2)]
  dsimp only
  generalize axisOf (patchAxis (n 0) ng (dd 0) (c 0)) m.x m.mom.vx dt = ax at *
  generalize axisOf (patchAxis (n 1) ng (dd 1) (c 1)) m.y m.mom.vy dt = ay at *
  generalize axisOf (patchAxis (n 2) ng (dd 2) (c 2)) m.z m.mom.vz dt = az at *
  have xc := supp_cum (supp_DS x0 x1) ox.sumDS
  have yc := supp_cum (supp_DS y0 y1) oy.sumDS
  have zc := supp_cum (supp_DS z0 z1) oz.sumDS
  have key : ∀ f g h, Supp (n 0) (mg 0) ax.i0 f → Supp (n 1) (mg 1) ay.i0 g → Supp (n 2) (mg 2) az.i0 h →
      foldTo n ng T (tri (proj (wrapIdx (n 0 + 2 * ng) ax.i0)) (proj (wrapIdx (n 1 + 2 * ng) ay.i0))
        (proj (wrapIdx (n 2 + 2 * ng) az.i0)) f g h)
      = tri (proj (wrapIdx (M 0) (ax.i0 + (c 0 * n 0 : Int)))) (proj (wrapIdx (M 1) (ay.i0 + (c 1 * n 1 : Int))))
        (proj (wrapIdx (M 2) (az.i0 + (c 2 * n 2 : Int)))) f g h V := by
    intro f g h hf hg hh
    have := foldTo_prod hF ![ax.i0, ay.i0, az.i0] ![f, g, h] (fun a => by
      match a with
      | 0 => exact hf
      | 1 => exact hg
      | 2 => exact hh)
    simp only [Fin.prod_univ_three] at this
    exact this
  generalize hT : tri (proj (wrapIdx (n 0 + 2 * ng) ax.i0)) (proj (wrapIdx (n 1 + 2 * ng) ay.i0))
        (proj (wrapIdx (n 2 + 2 * ng) az.i0)) = T3 at *
  generalize hU : tri (proj (wrapIdx (M 0) (ax.i0 + (c 0 * n 0 : Int)))) (proj (wrapIdx (M 1) (ay.i0 + (c 1 * n 1 : Int))))
        (proj (wrapIdx (M 2) (az.i0 + (c 2 * n 2 : Int)))) = U at *
  have four : ∀ (K : ℚ) (A B C D : Arr 3), foldTo n ng T (fun l => K * (1/3 * A l + 1/6 * B l + 1/6 * C l + 1/3 * D l))
      = K * (1/3 * foldTo n ng T A + 1/6 * foldTo n ng T B + 1/6 * foldTo n ng T C
        + 1/3 * foldTo n ng T D) := by
    intro K A B C D
    rw [foldTo_smul, foldTo_add, foldTo_add, foldTo_add, foldTo_smul, foldTo_smul, foldTo_smul, foldTo_smul]
  have eT : tri (proj (wrapIdx (patchAxis (n 0) ng (dd 0) (c 0)).n ax.i0)) (proj (wrapIdx (patchAxis (n 1) ng (dd 1) (c 1)).n ay.i0))
        (proj (wrapIdx (patchAxis (n 2) ng (dd 2) (c 2)).n az.i0)) = T3 := hT
  rw [eT]
  match d with
  | 0 =>
    show foldTo n ng T (fun l => _ * (1/3 * T3 (cum ax.DS) ay.S0 az.S0 l + 1/6 * T3 (cum ax.DS) ay.S1 az.S0 l
      + 1/6 * T3 (cum ax.DS) ay.S0 az.S1 l + 1/3 * T3 (cum ax.DS) ay.S1 az.S1 l)) = _
    rw [four, key _ _ _ xc y0 z0, key _ _ _ xc y1 z0, key _ _ _ xc y0 z1, key _ _ _ xc y1 z1]
    rfl
  | 1 =>
    show foldTo n ng T (fun l => _ * (1/3 * T3 ax.S0 (cum ay.DS) az.S0 l + 1/6 * T3 ax.S1 (cum ay.DS) az.S0 l
      + 1/6 * T3 ax.S0 (cum ay.DS) az.S1 l + 1/3 * T3 ax.S1 (cum ay.DS) az.S1 l)) = _
    rw [four, key _ _ _ x0 yc z0, key _ _ _ x1 yc z0, key _ _ _ x0 yc z1, key _ _ _ x1 yc z1]
    rfl
  | 2 =>
    show foldTo n ng T (fun l => _ * (1/3 * T3 ax.S0 ay.S0 (cum az.DS) l + 1/6 * T3 ax.S1 ay.S0 (cum az.DS) l
      + 1/6 * T3 ax.S0 ay.S1 (cum az.DS) l + 1/3 * T3 ax.S1 ay.S1 (cum az.DS) l)) = _
    rw [four, key _ _ _ x0 y0 zc, key _ _ _ x1 y0 zc, key _ _ _ x0 y1 zc, key _ _ _ x1 y1 zc]
    rfl
  | 3 =>
    show foldTo n ng T (fun l => _ * T3 ax.S1 ay.S1 az.S1 l) = _
    rw [foldTo_smul, key _ _ _ x1 y1 z1]
    rfl

/-! ## density -/

/-- a whole period does not change the weights -/
theorem lineWeight_period (N : Nat) (X : ℚ) (k c : Int) :
    Shape.lineWeight N (X + k * N) c = Shape.lineWeight N X c := by
  unfold Shape.lineWeight
  rw [← finsum_comp_equiv (Equiv.addRight (k * (N : Int)))]
  refine finsum_congr fun m => ?_
  have e : (Equiv.addRight (k * (N : Int))) m = m + k * N := rfl
  rw [e, Int.add_mul_emod_self_right]
  push_cast
  rw [show X + k * (N : ℚ) - (m + k * N) = X - m by ring]

theorem lineWeight_drift {N : Nat} {d dt x v x' v' : ℚ} (hd : 0 < d) (h : Drift (N * d) dt x v x' v') (c : Int) :
    Shape.lineWeight N ((x' + -(dt / 2) * v') / d) c = Shape.lineWeight N ((x + dt / 2 * v) / d) c := by
  obtain ⟨k, rfl⟩ := h
  rw [← lineWeight_period N ((x + dt / 2 * v) / d) k c]
  congr 1
  have := hd.ne'
  field_simp
  ring

theorem density_next2 {n : Fin 2 → Nat} {d : Fin 2 → ℚ} (hd : ∀ a, 0 < d a) {dt : ℚ} {a b : List Macro2}
    (h : NextStep (Moved2 (fun i => n i * d i) dt) a b) (c : Fin 2 → Int) :
    chargeDensity2 n d (-(dt / 2)) b c = chargeDensity2 n d (dt / 2) a c := by
  obtain ⟨b', hp, hf⟩ := h
  unfold chargeDensity2
  rw [← (hp.map _).sum_eq]
  clear hp
  induction hf with
  | nil => rfl
  | cons h _ ih =>
    obtain ⟨h1, h2, h3, h4⟩ := h
    rw [List.map_cons, List.sum_cons, List.map_cons, List.sum_cons, ih, h1, h2, lineWeight_drift (hd 0) h3,
      lineWeight_drift (hd 1) h4]

theorem density_next3 {n : Fin 3 → Nat} {d : Fin 3 → ℚ} (hd : ∀ a, 0 < d a) {dt : ℚ} {a b : List Macro3}
    (h : NextStep (Moved3 (fun i => n i * d i) dt) a b) (c : Fin 3 → Int) :
    chargeDensity3 n d (-(dt / 2)) b c = chargeDensity3 n d (dt / 2) a c := by
  obtain ⟨b', hp, hf⟩ := h
  unfold chargeDensity3
  rw [← (hp.map _).sum_eq]
  clear hp
  induction hf with
  | nil => rfl
  | cons h _ ih =>
    obtain ⟨h1, h2, h3, h4, h5⟩ := h
    rw [List.map_cons, List.sum_cons, List.map_cons, List.sum_cons, ih, h1, h2, lineWeight_drift (hd 0) h3,
      lineWeight_drift (hd 1) h4, lineWeight_drift (hd 2) h5]

/-! ## patches -/

theorem sum_everyone {M : Type} (N : Nat) (L : Nat → List M) (F : M → ℚ) :
    (((List.range N).flatMap L).map F).sum = ∑ t ∈ Finset.range N, ((L t).map F).sum := by
  induction N with
  | zero => rfl
  | succ N ih =>
    rw [List.range_succ, List.flatMap_append, List.map_append, List.sum_append, ih, Finset.sum_range_succ]
    simp

theorem zero_field {k : Nat} (f : Fin 4) (l : Fin k → Int) : field (zeroAcc : Acc k) f l = 0 := by
  match f with
  | 0 => rfl
  | 1 => rfl
  | 2 => rfl
  | 3 => rfl

theorem globalCell_mod {k : Nat} {n np c : Fin k → Nat} {v : Fin k → Int} (hc : ∀ a, c a < np a) (hv : Own n v) :
    (fun a => globalCell n c v a % (np a * n a : Int)) = globalCell n c v := by
  funext a
  have h1 := hv a
  have h2 : ((c a : Int) + 1) * n a ≤ np a * n a :=
    mul_le_mul_of_nonneg_right (by have := hc a; omega) (by omega)
  have h3 : (0 : Int) ≤ (c a : Int) * n a := by positivity
  unfold globalCell
  exact Int.emod_eq_of_lt (by omega) (by nlinarith)

/-- the cells of patch `u` that are the same as cell `v` of patch `t`, axis by axis -/
def sel {k : Nat} (g : Place k) (n : Fin k → Nat) (u t : Nat) (v : Fin k → Int) (a : Fin k) (w : Int) : Bool :=
  decide (SameAxis (g.np a) (n a) (g.bc a) (g.coord u a) w (g.coord t a) (v a))

/-- the fold formula of the exchange, patch by patch -/
theorem same_fold {k : Nat} {n : Fin k → Nat} {ng : Nat} {g : Place k} (A : Arr k) (u t : Nat) (v : Fin k → Int) :
    (∑ w ∈ allCells n ng, if g.Same n u w t v then A (index n ng w) else 0) = foldTo n ng (sel g n u t v) A := by
  unfold foldTo
  rw [Finset.sum_filter]
  refine Finset.sum_congr rfl fun w _ => ?_
  have : g.Same n u w t v ↔ ∀ a, sel g n u t v a (w a) = true := by
    unfold Place.Same sel
    simp only [decide_eq_true_eq]
  simp only [this]

/-- a periodic axis -/
theorem sel_ring {k : Nat} {n : Fin k → Nat} {ng : Nat} {g : Place k} {u t : Nat} {v : Fin k → Int} {a : Fin k}
    (hp : (g.bc a).lo = .periodic) (hn : 0 < n a) (hnp : 0 < g.np a) :
    FoldAxis (n a) ng ng (g.np a * n a) (g.coord u a * n a)
      (globalCell n (g.coord t) v a % ((g.np a * n a : Nat) : Int)) (sel g n u t v a) := by
  have := foldAxis_ring (ng := ng) (c := g.coord u a) hn (Nat.mul_pos hnp hn) (globalCell n (g.coord t) v a)
  refine Eq.mp ?_ this
  congr 1
  funext w
  unfold sel SameAxis globalCell
  congr 1
  rw [if_pos hp]
  push_cast
  rfl

/-- an axis with ends -/
theorem sel_open {k : Nat} {n : Fin k → Nat} {ng m : Nat} {g : Place k} {u t : Nat} {v : Fin k → Int} {a : Fin k}
    (hp : ¬ (g.bc a).lo = .periodic) (hn : 0 < n a) (hm : m ≤ ng) (hu : g.coord u a < g.np a)
    (h1 : -(m : Int) ≤ globalCell n (g.coord t) v a) (h2 : globalCell n (g.coord t) v a < g.np a * n a + m) :
    FoldAxis (n a) ng m (g.np a * n a + 2 * m) (g.coord u a * n a)
      (globalCell n (g.coord t) v a % ((g.np a * n a + 2 * m : Nat) : Int)) (sel g n u t v a) := by
  have := foldAxis_open (ng := ng) (c := g.coord u a) hn hm hu h1 h2
  refine Eq.mp ?_ this
  congr 1
  funext w
  unfold sel SameAxis globalCell
  congr 1
  rw [if_neg hp]

theorem coord_lt2 {npx npy : Nat} {bx by' : AxisBC} {loc : List P2} (hsub : ∀ p ∈ loc, p ∈ createPatches2 npx npy)
    {t : Nat} (ht : t < loc.length) (a : Fin 2) :
    (place2 npx npy bx by' loc).coord t a < (place2 npx npy bx by' loc).np a := by
  have hp := hsub _ (List.getElem_mem ht)
  have h := (grid_createPatches2 npx npy).bound _ hp
  show (match loc[t]? with
      | some p => ![p.ix, p.iy]
      | none => ![0, 0]) a < (![npx, npy] : Fin 2 → Nat) a
  rw [List.getElem?_eq_getElem ht]
  match a with
  | 0 => exact h.1
  | 1 => exact h.2

theorem coord_lt3 {npx npy npz : Nat} {bx by' bz : AxisBC} {loc : List P3}
    (hsub : ∀ p ∈ loc, p ∈ createPatches3 npx npy npz) {t : Nat} (ht : t < loc.length) (a : Fin 3) :
    (place3 npx npy npz bx by' bz loc).coord t a < (place3 npx npy npz bx by' bz loc).np a := by
  have hp := hsub _ (List.getElem_mem ht)
  have h := (grid_createPatches3 npx npy npz).bound _ hp
  show (match loc[t]? with
      | some p => ![p.ix, p.iy, p.iz]
      | none => ![0, 0, 0]) a < (![npx, npy, npz] : Fin 3 → Nat) a
  rw [List.getElem?_eq_getElem ht]
  match a with
  | 0 => exact h.1
  | 1 => exact h.2.1
  | 2 => exact h.2.2

/-- continuity of what one particle adds to the undivided grid -/
theorem closed2_cont {n : Fin 2 → Nat} (hn : ∀ a, 0 < n a) {d : Fin 2 → ℚ} (hd : ∀ a, 0 < d a) {dt : ℚ} (hdt : dt ≠ 0)
    {m : Macro2} (cx : |m.mom.vx * dt| ≤ d 0) (cy : |m.mom.vy * dt| ≤ d 1) (c : Fin 2 → Int)
    (hc : ∀ a, 0 ≤ c a ∧ c a < n a) :
    let gx : Grid1 := ⟨n 0, d 0, 0⟩
    let gy : Grid1 := ⟨n 1, d 1, 0⟩
    (density2 gx gy m.q m.mom.w (m.x + m.mom.vx * dt / 2) (m.y + m.mom.vy * dt / 2) c
      - density2 gx gy m.q m.mom.w (m.x - m.mom.vx * dt / 2) (m.y - m.mom.vy * dt / 2) c) / dt
      + divJ2 gx gy (closed2 gx gy dt m 0) (closed2 gx gy dt m 1) c = 0
    ∧ closed2 gx gy dt m 3 c = density2 gx gy m.q m.mom.w (m.x + m.mom.vx * dt / 2) (m.y + m.mom.vy * dt / 2) c := by
  intro gx gy
  have gxo : GridOK gx := ⟨hn 0, hd 0⟩
  have gyo : GridOK gy := ⟨hn 1, hd 1⟩
  have h := charge_conserving2 gx gy gxo gyo dt m.q m.x m.y m.mom hdt cx cy zeroAcc c
    ⟨(hc 0).1, (hc 0).2, (hc 1).1, (hc 1).2⟩
  have e := fun f l => dep2_closed (dt := dt) (m := m) gxo gyo hdt cx cy zeroAcc f l
  have e0 : (fun l => (deposit2 gx gy dt m.q m.x m.y m.mom zeroAcc).jx l - (zeroAcc : Acc 2).jx l)
      = closed2 gx gy dt m 0 := by
    funext l; have := e 0 l; rw [zero_field, zero_add] at this; exact (sub_zero _).trans this
  have e1 : (fun l => (deposit2 gx gy dt m.q m.x m.y m.mom zeroAcc).jy l - (zeroAcc : Acc 2).jy l)
      = closed2 gx gy dt m 1 := by
    funext l; have := e 1 l; rw [zero_field, zero_add] at this; exact (sub_zero _).trans this
  have e3 : (deposit2 gx gy dt m.q m.x m.y m.mom zeroAcc).rho c - (zeroAcc : Acc 2).rho c = closed2 gx gy dt m 3 c := by
    have := e 3 c; rw [zero_field, zero_add] at this; exact (sub_zero _).trans this
  dsimp only at h
  rw [e0, e1, e3] at h
  exact h

theorem closed3_cont {n : Fin 3 → Nat} (hn : ∀ a, 2 ≤ n a) {d : Fin 3 → ℚ} (hd : ∀ a, 0 < d a) {dt : ℚ} (hdt : dt ≠ 0)
    {m : Macro3} (cx : |m.mom.vx * dt| ≤ d 0) (cy : |m.mom.vy * dt| ≤ d 1) (cz : |m.mom.vz * dt| ≤ d 2)
    (c : Fin 3 → Int) (hc : ∀ a, 0 ≤ c a ∧ c a < n a) :
    let gx : Grid1 := ⟨n 0, d 0, 0⟩
    let gy : Grid1 := ⟨n 1, d 1, 0⟩
    let gz : Grid1 := ⟨n 2, d 2, 0⟩
    (density3 gx gy gz m.q m.mom.w (m.x + m.mom.vx * dt / 2) (m.y + m.mom.vy * dt / 2) (m.z + m.mom.vz * dt / 2) c
      - density3 gx gy gz m.q m.mom.w (m.x - m.mom.vx * dt / 2) (m.y - m.mom.vy * dt / 2) (m.z - m.mom.vz * dt / 2) c)
        / dt + divJ3 gx gy gz (closed3 gx gy gz dt m 0) (closed3 gx gy gz dt m 1) (closed3 gx gy gz dt m 2) c = 0
    ∧ closed3 gx gy gz dt m 3 c
      = density3 gx gy gz m.q m.mom.w (m.x + m.mom.vx * dt / 2) (m.y + m.mom.vy * dt / 2) (m.z + m.mom.vz * dt / 2) c := by
  intro gx gy gz
  have gxo : GridOK gx := ⟨by have := hn 0; show 0 < n 0; omega, hd 0⟩
  have gyo : GridOK gy := ⟨by have := hn 1; show 0 < n 1; omega, hd 1⟩
  have gzo : GridOK gz := ⟨by have := hn 2; show 0 < n 2; omega, hd 2⟩
  have ad : Adds3 gx gy gz dt m.q m.x m.y m.z m.mom (deposit3Fast gx gy gz dt m.q m.x m.y m.z m.mom) :=
    deposit3Fast_adds gx gy gz gxo gyo gzo (hn 0) (hn 1) (hn 2) dt m.q m.x m.y m.z hdt m.mom cx cy cz
  have h := conserves3_of_adds gxo gyo gzo hdt cx cy cz ad zeroAcc c
    ⟨(hc 0).1, (hc 0).2, (hc 1).1, (hc 1).2, (hc 2).1, (hc 2).2⟩
  have e := fun f l => adds3_closed (m := m) ad zeroAcc f l
  have e0 : (fun l => (deposit3Fast gx gy gz dt m.q m.x m.y m.z m.mom zeroAcc).jx l - (zeroAcc : Acc 3).jx l)
      = closed3 gx gy gz dt m 0 := by
    funext l; have := e 0 l; rw [zero_field, zero_add] at this; exact (sub_zero _).trans this
  have e1 : (fun l => (deposit3Fast gx gy gz dt m.q m.x m.y m.z m.mom zeroAcc).jy l - (zeroAcc : Acc 3).jy l)
      = closed3 gx gy gz dt m 1 := by
    funext l; have := e 1 l; rw [zero_field, zero_add] at this; exact (sub_zero _).trans this
  have e2 : (fun l => (deposit3Fast gx gy gz dt m.q m.x m.y m.z m.mom zeroAcc).jz l - (zeroAcc : Acc 3).jz l)
      = closed3 gx gy gz dt m 2 := by
    funext l; have := e 2 l; rw [zero_field, zero_add] at this; exact (sub_zero _).trans this
  have e3 : (deposit3Fast gx gy gz dt m.q m.x m.y m.z m.mom zeroAcc).rho c - (zeroAcc : Acc 3).rho c
      = closed3 gx gy gz dt m 3 c := by
    have := e 3 c; rw [zero_field, zero_add] at this; exact (sub_zero _).trans this
  dsimp only at h
  rw [e0, e1, e2, e3] at h
  exact h

/-! ## the undivided grid -/

/-- remainder of a cell on the ring -/
theorem mod_cell {N : Nat} (h : 0 < N) (c : Int) : 0 ≤ c % (N : Int) ∧ c % (N : Int) < N :=
  ⟨Int.emod_nonneg _ (by omega), Int.emod_lt_of_pos _ (by omega)⟩

theorem density2_cell {n : Fin 2 → Nat} {d : Fin 2 → ℚ} (q w x y : ℚ) (c : Fin 2 → Int) :
    density2 ⟨n 0, d 0, 0⟩ ⟨n 1, d 1, 0⟩ q w x y (fun a => c a % (n a : Int))
      = q * w / (d 0 * d 1) * (Shape.lineWeight (n 0) (x / d 0) (c 0 % n 0) * Shape.lineWeight (n 1) (y / d 1) (c 1 % n 1)) := by
  unfold density2
  dsimp only
  rw [sub_zero, sub_zero]

theorem density3_cell {n : Fin 3 → Nat} {d : Fin 3 → ℚ} (q w x y z : ℚ) (c : Fin 3 → Int) :
    density3 ⟨n 0, d 0, 0⟩ ⟨n 1, d 1, 0⟩ ⟨n 2, d 2, 0⟩ q w x y z (fun a => c a % (n a : Int))
      = q * w / (d 0 * d 1 * d 2) * (Shape.lineWeight (n 0) (x / d 0) (c 0 % n 0)
        * Shape.lineWeight (n 1) (y / d 1) (c 1 % n 1) * Shape.lineWeight (n 2) (z / d 2) (c 2 % n 2)) := by
  unfold density3
  dsimp only
  rw [sub_zero, sub_zero, sub_zero]

/-- deposited currents of all particles on the undivided grid, as a field on all cells -/
def wholeJ2 (n : Fin 2 → Nat) (d : Fin 2 → ℚ) (dt : ℚ) (ms : List Macro2) (f : Fin 4) (c : Fin 2 → Int) : ℚ :=
  (ms.map fun m => closed2 ⟨n 0, d 0, 0⟩ ⟨n 1, d 1, 0⟩ dt m f (fun a => c a % (n a : Int))).sum

/-- deposited currents of all particles on the undivided grid, as a field on all cells -/
def wholeJ3 (n : Fin 3 → Nat) (d : Fin 3 → ℚ) (dt : ℚ) (ms : List Macro3) (f : Fin 4) (c : Fin 3 → Int) : ℚ :=
  (ms.map fun m => closed3 ⟨n 0, d 0, 0⟩ ⟨n 1, d 1, 0⟩ ⟨n 2, d 2, 0⟩ dt m f (fun a => c a % (n a : Int))).sum

theorem dn_mod {k : Nat} {n : Fin k → Nat} (a : Fin k) (c : Fin k → Int) (b : Fin k) :
    dn a c b % (n b : Int) = if b = a then (c b % (n b : Int) - 1) % (n b : Int) else c b % (n b : Int) := by
  unfold dn
  split
  · rw [Int.emod_sub_emod]
  · rfl

theorem whole_cont2 {n : Fin 2 → Nat} (hn : ∀ a, 0 < n a) {d : Fin 2 → ℚ} (hd : ∀ a, 0 < d a) {dt : ℚ} (hdt : dt ≠ 0)
    (ms : List Macro2) (hall : ∀ m ∈ ms, |m.mom.vx * dt| ≤ d 0 ∧ |m.mom.vy * dt| ≤ d 1) (c : Fin 2 → Int) :
    (chargeDensity2 n d (dt / 2) ms c - chargeDensity2 n d (-(dt / 2)) ms c) / dt
      + ((wholeJ2 n d dt ms 0 c - wholeJ2 n d dt ms 0 (dn 0 c)) / d 0
        + (wholeJ2 n d dt ms 1 c - wholeJ2 n d dt ms 1 (dn 1 c)) / d 1) = 0
    ∧ wholeJ2 n d dt ms 3 c = chargeDensity2 n d (dt / 2) ms c := by
  induction ms with
  | nil => simp [chargeDensity2, wholeJ2]
  | cons m ms ih =>
    obtain ⟨i1, i2⟩ := ih (fun m' hm => hall m' (List.mem_cons_of_mem _ hm))
    obtain ⟨cx, cy⟩ := hall m List.mem_cons_self
    obtain ⟨h1, h2⟩ := closed2_cont hn hd hdt cx cy (fun a => c a % (n a : Int)) (fun a => mod_cell (hn a) _)
    rw [density2_cell] at h1 h2
    rw [density2_cell] at h1
    have ec : ∀ s, chargeDensity2 n d s (m :: ms) c = m.q * m.mom.w / (d 0 * d 1) *
        (Shape.lineWeight (n 0) ((m.x + s * m.mom.vx) / d 0) (c 0 % n 0) *
         Shape.lineWeight (n 1) ((m.y + s * m.mom.vy) / d 1) (c 1 % n 1)) + chargeDensity2 n d s ms c := fun s => rfl
    have ew : ∀ f c, wholeJ2 n d dt (m :: ms) f c = closed2 ⟨n 0, d 0, 0⟩ ⟨n 1, d 1, 0⟩ dt m f
        (fun a => c a % (n a : Int)) + wholeJ2 n d dt ms f c := fun f c => rfl
    rw [ec, ec, ew, ew, ew, ew, ew]
    have p1 : m.x + dt / 2 * m.mom.vx = m.x + m.mom.vx * dt / 2 := by ring
    have p2 : m.y + dt / 2 * m.mom.vy = m.y + m.mom.vy * dt / 2 := by ring
    have p3 : m.x + -(dt / 2) * m.mom.vx = m.x - m.mom.vx * dt / 2 := by ring
    have p4 : m.y + -(dt / 2) * m.mom.vy = m.y - m.mom.vy * dt / 2 := by ring
    rw [p1, p2, p3, p4]
    have d0 : (fun a => dn 0 c a % (n a : Int)) = ![(c 0 % (n 0 : Int) - 1) % (n 0 : Int), c 1 % (n 1 : Int)] := by
      funext a; rw [dn_mod]
      match a with
      | 0 => rfl
      | 1 => rfl
    have d1 : (fun a => dn 1 c a % (n a : Int)) = ![c 0 % (n 0 : Int), (c 1 % (n 1 : Int) - 1) % (n 1 : Int)] := by
      funext a; rw [dn_mod]
      match a with
      | 0 => rfl
      | 1 => rfl
    rw [d0, d1]
    unfold divJ2 at h1
    dsimp only at h1
    constructor
    · linear_combination h1 + i1
    · rw [h2, i2]

theorem whole_cont3 {n : Fin 3 → Nat} (hn : ∀ a, 2 ≤ n a) {d : Fin 3 → ℚ} (hd : ∀ a, 0 < d a) {dt : ℚ} (hdt : dt ≠ 0)
    (ms : List Macro3)
    (hall : ∀ m ∈ ms, |m.mom.vx * dt| ≤ d 0 ∧ |m.mom.vy * dt| ≤ d 1 ∧ |m.mom.vz * dt| ≤ d 2) (c : Fin 3 → Int) :
    (chargeDensity3 n d (dt / 2) ms c - chargeDensity3 n d (-(dt / 2)) ms c) / dt
      + ((wholeJ3 n d dt ms 0 c - wholeJ3 n d dt ms 0 (dn 0 c)) / d 0
        + (wholeJ3 n d dt ms 1 c - wholeJ3 n d dt ms 1 (dn 1 c)) / d 1
        + (wholeJ3 n d dt ms 2 c - wholeJ3 n d dt ms 2 (dn 2 c)) / d 2) = 0
    ∧ wholeJ3 n d dt ms 3 c = chargeDensity3 n d (dt / 2) ms c := by
  induction ms with
  | nil => simp [chargeDensity3, wholeJ3]
  | cons m ms ih =>
    obtain ⟨i1, i2⟩ := ih (fun m' hm => hall m' (List.mem_cons_of_mem _ hm))
    obtain ⟨cx, cy, cz⟩ := hall m List.mem_cons_self
    obtain ⟨h1, h2⟩ := closed3_cont hn hd hdt cx cy cz (fun a => c a % (n a : Int))
      (fun a => mod_cell (by have := hn a; omega) _)
    rw [density3_cell] at h1 h2
    rw [density3_cell] at h1
    have ec : ∀ s, chargeDensity3 n d s (m :: ms) c = m.q * m.mom.w / (d 0 * d 1 * d 2) *
        (Shape.lineWeight (n 0) ((m.x + s * m.mom.vx) / d 0) (c 0 % n 0) *
         Shape.lineWeight (n 1) ((m.y + s * m.mom.vy) / d 1) (c 1 % n 1) *
         Shape.lineWeight (n 2) ((m.z + s * m.mom.vz) / d 2) (c 2 % n 2)) + chargeDensity3 n d s ms c := fun s => rfl
    have ew : ∀ f c, wholeJ3 n d dt (m :: ms) f c = closed3 ⟨n 0, d 0, 0⟩ ⟨n 1, d 1, 0⟩ ⟨n 2, d 2, 0⟩ dt m f
        (fun a => c a % (n a : Int)) + wholeJ3 n d dt ms f c := fun f c => rfl
    rw [ec, ec, ew, ew, ew, ew, ew, ew, ew]
    have p1 : m.x + dt / 2 * m.mom.vx = m.x + m.mom.vx * dt / 2 := by ring
    have p2 : m.y + dt / 2 * m.mom.vy = m.y + m.mom.vy * dt / 2 := by ring
    have p3 : m.x + -(dt / 2) * m.mom.vx = m.x - m.mom.vx * dt / 2 := by ring
    have p4 : m.y + -(dt / 2) * m.mom.vy = m.y - m.mom.vy * dt / 2 := by ring
    have p5 : m.z + dt / 2 * m.mom.vz = m.z + m.mom.vz * dt / 2 := by ring
    have p6 : m.z + -(dt / 2) * m.mom.vz = m.z - m.mom.vz * dt / 2 := by ring
    rw [p1, p2, p3, p4, p5, p6]
    have d0 : (fun a => dn 0 c a % (n a : Int))
        = ![(c 0 % (n 0 : Int) - 1) % (n 0 : Int), c 1 % (n 1 : Int), c 2 % (n 2 : Int)] := by
      funext a; rw [dn_mod]
      match a with
      | 0 => rfl
      | 1 => rfl
      | 2 => rfl
    have d1 : (fun a => dn 1 c a % (n a : Int))
        = ![c 0 % (n 0 : Int), (c 1 % (n 1 : Int) - 1) % (n 1 : Int), c 2 % (n 2 : Int)] := by
      funext a; rw [dn_mod]
      match a with
      | 0 => rfl
      | 1 => rfl
      | 2 => rfl
    have d2 : (fun a => dn 2 c a % (n a : Int))
        = ![c 0 % (n 0 : Int), c 1 % (n 1 : Int), (c 2 % (n 2 : Int) - 1) % (n 2 : Int)] := by
      funext a; rw [dn_mod]
      match a with
      | 0 => rfl
      | 1 => rfl
      | 2 => rfl
    rw [d0, d1, d2]
    unfold divJ3 at h1
    dsimp only at h1
    constructor
    · linear_combination h1 + i1
    · rw [h2, i2]

end Verif.PicStep
