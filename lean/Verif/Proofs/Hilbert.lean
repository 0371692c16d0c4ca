import Mathlib.Tactic.Ring
import Mathlib.Tactic.LinearCombination
import Verif.Model.Hilbert
/-! # Lemmas for the generalized Hilbert curve -/
namespace Verif.Hilbert

/-- indicator of `lo ≤ i < hi` -/
def ind (lo hi i : Int) : Nat := if lo ≤ i ∧ i < hi then 1 else 0

theorem ind_congr {a b i a' b' i' : Int} (h : (a ≤ i ∧ i < b) ↔ (a' ≤ i' ∧ i' < b')) : ind a b i = ind a' b' i' := by
  unfold ind
  by_cases h1 : a ≤ i ∧ i < b
  · rw [if_pos h1, if_pos (h.mp h1)]
  · rw [if_neg h1, if_neg (fun h2 => h1 (h.mpr h2))]

theorem ind_split {e w : Int} (h0 : 0 ≤ e) (h1 : e ≤ w) (i : Int) : ind 0 w i = ind 0 e i + ind e w i := by
  unfold ind
  by_cases h : 0 ≤ i ∧ i < e
  · rw [if_pos (by omega), if_pos h, if_neg (by omega)]
  · by_cases h' : e ≤ i ∧ i < w
    · rw [if_pos (by omega), if_neg h, if_pos h']
    · rw [if_neg (by omega), if_neg h, if_neg h']

theorem ind_empty (i : Int) : ind 0 0 i = 0 := if_neg (by omega)

/-! ## vectors in three dimensions -/

theorem V3.ext' {a b : V3} (hx : a.x = b.x) (hy : a.y = b.y) (hz : a.z = b.z) : a = b := by
  cases a; cases b; simp_all

def dot3 (a b : V3) : Int := a.x * b.x + a.y * b.y + a.z * b.z
def sc3 (k : Nat) (u : V3) : V3 := ⟨k * u.x, k * u.y, k * u.z⟩

theorem add3_x (a b : V3) : (a + b).x = a.x + b.x := rfl
theorem add3_y (a b : V3) : (a + b).y = a.y + b.y := rfl
theorem add3_z (a b : V3) : (a + b).z = a.z + b.z := rfl
theorem sub3_x (a b : V3) : (a - b).x = a.x - b.x := rfl
theorem sub3_y (a b : V3) : (a - b).y = a.y - b.y := rfl
theorem sub3_z (a b : V3) : (a - b).z = a.z - b.z := rfl
theorem neg3_x (a : V3) : (-a).x = -a.x := rfl
theorem neg3_y (a : V3) : (-a).y = -a.y := rfl
theorem neg3_z (a : V3) : (-a).z = -a.z := rfl

theorem dot3_shift (q p r u : V3) : dot3 (q - (p + r)) u = dot3 (q - p) u - dot3 r u := by
  unfold dot3; simp only [add3_x, add3_y, add3_z, sub3_x, sub3_y, sub3_z]; ring
theorem dot3_add (a b u : V3) : dot3 (a + b) u = dot3 a u + dot3 b u := by
  unfold dot3; simp only [add3_x, add3_y, add3_z]; ring
theorem dot3_sub (a b u : V3) : dot3 (a - b) u = dot3 a u - dot3 b u := by
  unfold dot3; simp only [sub3_x, sub3_y, sub3_z]; ring
theorem dot3_neg (a u : V3) : dot3 a (-u) = -dot3 a u := by
  unfold dot3; simp only [neg3_x, neg3_y, neg3_z]; ring
theorem dot3_neg' (a u : V3) : dot3 (-a) u = -dot3 a u := by
  unfold dot3; simp only [neg3_x, neg3_y, neg3_z]; ring
theorem dot3_sc (k : Nat) (a u : V3) : dot3 (sc3 k a) u = k * dot3 a u := by
  unfold dot3 sc3; ring
theorem dot3_comm (a u : V3) : dot3 a u = dot3 u a := by unfold dot3; ring

theorem sc3_sub {e w : Nat} (h : e ≤ w) (u : V3) : sc3 w u - sc3 e u = sc3 (w - e) u := by
  apply V3.ext' <;> simp only [sub3_x, sub3_y, sub3_z, sc3] <;> push_cast [h] <;> ring
theorem sc3_neg (e : Nat) (u : V3) : -sc3 e u = sc3 e (-u) := by
  apply V3.ext' <;> simp only [neg3_x, neg3_y, neg3_z, sc3] <;> ring

/-- one of the six axis directions -/
def Unit3 (u : V3) : Prop :=
  u = ⟨1, 0, 0⟩ ∨ u = ⟨-1, 0, 0⟩ ∨ u = ⟨0, 1, 0⟩ ∨ u = ⟨0, -1, 0⟩ ∨ u = ⟨0, 0, 1⟩ ∨ u = ⟨0, 0, -1⟩

theorem Unit3.neg {u : V3} (h : Unit3 u) : Unit3 (-u) := by
  unfold Unit3
  rcases h with rfl | rfl | rfl | rfl | rfl | rfl <;> decide

theorem Unit3.dot_self {u : V3} (h : Unit3 u) : dot3 u u = 1 := by
  rcases h with rfl | rfl | rfl | rfl | rfl | rfl <;> decide

theorem Unit3.len {u : V3} (h : Unit3 u) (k : Nat) : len3 (sc3 k u) = k := by
  rcases h with rfl | rfl | rfl | rfl | rfl | rfl <;> simp only [len3, sc3] <;> omega

theorem Unit3.dir {u : V3} (h : Unit3 u) {k : Nat} (hk : 0 < k) : dir3 (sc3 k u) = u := by
  have h1 : sgn ((k : Int) * 1) = 1 := by unfold sgn; rw [if_neg (by omega), if_pos (by omega)]
  have h2 : sgn ((k : Int) * -1) = -1 := by unfold sgn; rw [if_pos (by omega)]
  have h3 : sgn ((k : Int) * 0) = 0 := by unfold sgn; rw [if_neg (by omega), if_neg (by omega)]
  rcases h with rfl | rfl | rfl | rfl | rfl | rfl <;> simp only [dir3, sc3, h1, h2, h3]

theorem sgn_zero (k : Int) : sgn (k * 0) = 0 := by rw [mul_zero]; rfl

theorem Unit3.half {u : V3} (h : Unit3 u) (k : Nat) :
    ∃ e : Nat, half3 (sc3 k u) = sc3 e u ∧ (e = k / 2 ∨ e = (k + 1) / 2) := by
  have hp : ((k : Int) * 1).fdiv 2 = ((k / 2 : Nat) : Int) * 1 := by
    rw [Int.fdiv_eq_ediv_of_nonneg _ (by omega)]; omega
  have hn : ((k : Int) * -1).fdiv 2 = (((k + 1) / 2 : Nat) : Int) * -1 := by
    rw [Int.fdiv_eq_ediv_of_nonneg _ (by omega)]; omega
  have hz : ∀ e : Nat, ((k : Int) * 0).fdiv 2 = (e : Int) * 0 := by
    intro e; rw [mul_zero, mul_zero]; rfl
  rcases h with rfl | rfl | rfl | rfl | rfl | rfl
  · exact ⟨k / 2, by simp only [half3, sc3, hp, hz (k / 2)], Or.inl rfl⟩
  · exact ⟨(k + 1) / 2, by simp only [half3, sc3, hn, hz ((k + 1) / 2)], Or.inr rfl⟩
  · exact ⟨k / 2, by simp only [half3, sc3, hp, hz (k / 2)], Or.inl rfl⟩
  · exact ⟨(k + 1) / 2, by simp only [half3, sc3, hn, hz ((k + 1) / 2)], Or.inr rfl⟩
  · exact ⟨k / 2, by simp only [half3, sc3, hp, hz (k / 2)], Or.inl rfl⟩
  · exact ⟨(k + 1) / 2, by simp only [half3, sc3, hn, hz ((k + 1) / 2)], Or.inr rfl⟩

theorem sc3_add_dir (e : Nat) (u : V3) : sc3 e u + u = sc3 (e + 1) u := by
  apply V3.ext' <;> simp only [add3_x, add3_y, add3_z, sc3] <;> push_cast <;> ring

/-- the even half of `k`: which lengths are possible -/
theorem Unit3.even {u : V3} (h : Unit3 u) (k : Nat) :
    ∃ e : Nat, even3 (sc3 k u) = sc3 e u ∧ e ≤ k ∧ (2 ≤ k → 1 ≤ e ∧ e ≤ k - 1) ∧ k ≤ 2 * e + 1 ∧ 2 * e ≤ k + 3
      ∧ (k % 2 = 0 → k ≤ 2 * e ∧ 2 * e ≤ k + 2) ∧ (k = 3 → e = 2) ∧ (3 ≤ k → e % 2 = 0) := by
  obtain ⟨e, he, hk⟩ := h.half k
  unfold even3
  rw [he, h.len, h.len]
  by_cases hc : e % 2 = 1 ∧ k > 2
  · rw [if_pos hc, h.dir (by omega), sc3_add_dir]
    exact ⟨e + 1, rfl, by omega, by omega, by omega, by omega, by omega, by omega, by omega⟩
  · rw [if_neg hc]
    exact ⟨e, rfl, by omega, by omega, by omega, by omega, by omega, by omega, by omega⟩

/-- three mutually orthogonal axis directions -/
structure Frame3 (u v t : V3) : Prop where
  u1 : Unit3 u
  v1 : Unit3 v
  t1 : Unit3 t
  uv : dot3 u v = 0
  ut : dot3 u t = 0
  vt : dot3 v t = 0

namespace Frame3
variable {u v t : V3} (F : Frame3 u v t)
include F
theorem vu : dot3 v u = 0 := by rw [dot3_comm]; exact F.uv
theorem tu : dot3 t u = 0 := by rw [dot3_comm]; exact F.ut
theorem tv : dot3 t v = 0 := by rw [dot3_comm]; exact F.vt
theorem negu : Frame3 (-u) v t := ⟨F.u1.neg, F.v1, F.t1, by rw [dot3_neg', F.uv]; rfl, by rw [dot3_neg', F.ut]; rfl, F.vt⟩
theorem swap12 : Frame3 v u t := ⟨F.v1, F.u1, F.t1, F.vu, F.vt, F.ut⟩
theorem swap23 : Frame3 u t v := ⟨F.u1, F.t1, F.v1, F.ut, F.uv, F.tv⟩
theorem rot : Frame3 v t u := F.swap12.swap23
theorem rot' : Frame3 t u v := F.swap23.swap12
theorem negv : Frame3 u (-v) t := F.swap12.negu.swap12
theorem negt : Frame3 u v (-t) := F.swap23.negv.swap23

end Frame3

/-- the box with corner `p` and edges `w u`, `h v`, `d t`: 1 for the cells in it, 0 for the others -/
def box3 (p u v t : V3) (w h d : Nat) (q : V3) : Nat :=
  ind 0 w (dot3 (q - p) u) * (ind 0 h (dot3 (q - p) v) * ind 0 d (dot3 (q - p) t))

/-- `l` contains every cell of the box once and no other cell -/
def Fills3 (l : Option (List V3)) (p u v t : V3) (w h d : Nat) : Prop :=
  ∃ r, l = some r ∧ ∀ q, r.count q = box3 p u v t w h d q

theorem eq_of_dots {u v t a b : V3} (F : Frame3 u v t) (h1 : dot3 a u = dot3 b u) (h2 : dot3 a v = dot3 b v)
    (h3 : dot3 a t = dot3 b t) : a = b := by
  obtain ⟨hu, hv, ht, uv, ut, vt⟩ := F
  unfold dot3 at *
  rcases hu with rfl | rfl | rfl | rfl | rfl | rfl <;> rcases hv with rfl | rfl | rfl | rfl | rfl | rfl <;>
    first
    | (exfalso; revert uv; decide)
    | (rcases ht with rfl | rfl | rfl | rfl | rfl | rfl <;>
        first
        | (exfalso; revert ut; decide)
        | (exfalso; revert vt; decide)
        | (apply V3.ext' <;> simp only at h1 h2 h3 ⊢ <;> omega))

theorem run3_count {u v t : V3} (F : Frame3 u v t) (n : Nat) (p q : V3) :
    (run3 p u n).count q = box3 p u v t n 1 1 q := by
  induction n generalizing p with
  | zero => simp only [run3, List.count_nil, box3, Nat.cast_zero, ind_empty, zero_mul]
  | succ n ih =>
    rw [run3, List.count_cons, ih]
    unfold box3
    rw [dot3_shift, dot3_shift, dot3_shift, F.u1.dot_self, F.uv, F.ut, sub_zero, sub_zero]
    rw [ind_split (e := 1) (w := ((n + 1 : Nat) : Int)) (by omega) (by omega)]
    rw [ind_congr (a := 0) (b := (n : Int)) (i := dot3 (q - p) u - 1) (a' := 1) (b' := ((n + 1 : Nat) : Int))
      (i' := dot3 (q - p) u) (by omega)]
    rw [add_mul, add_comm]
    congr 1
    by_cases h : p = q
    · subst h
      have z : ∀ w, dot3 (p - p) w = 0 := by intro w; rw [dot3_sub, sub_self]
      rw [z, z, z]; simp [ind]
    · have hb : (p == q) = false := by simpa using h
      rw [hb, if_neg Bool.false_ne_true]
      unfold ind
      by_cases c1 : 0 ≤ dot3 (q - p) u ∧ dot3 (q - p) u < 1
      · by_cases c2 : 0 ≤ dot3 (q - p) v ∧ dot3 (q - p) v < ((1 : Nat) : Int)
        · by_cases c3 : 0 ≤ dot3 (q - p) t ∧ dot3 (q - p) t < ((1 : Nat) : Int)
          · exfalso
            apply h
            have z : ∀ w, dot3 (q - p) w = dot3 q w - dot3 p w := fun w => dot3_sub _ _ _
            rw [z] at c1 c2 c3
            exact eq_of_dots F (by omega) (by omega) (by omega)
          · rw [if_neg c3, mul_zero, mul_zero]
        · rw [if_neg c2, zero_mul, mul_zero]
      · rw [if_neg c1, zero_mul]

theorem fills_base {u v t : V3} (F : Frame3 u v t) (p : V3) {w h d : Nat}
    (hb : (h = 1 ∧ d = 1) ∨ (w = 1 ∧ d = 1) ∨ (w = 1 ∧ h = 1)) :
    Fills3 (generate3d p (sc3 w u) (sc3 h v) (sc3 d t)) p u v t w h d := by
  rw [generate3d]
  dsimp only
  rw [F.u1.len, F.v1.len, F.t1.len]
  by_cases h1 : h = 1 ∧ d = 1
  · rw [if_pos h1, h1.1, h1.2]
    by_cases hw : w = 0
    · refine ⟨_, rfl, fun q => ?_⟩
      subst hw
      simp only [run3, List.count_nil, box3, Nat.cast_zero, ind_empty, zero_mul]
    · rw [F.u1.dir (by omega)]
      exact ⟨_, rfl, fun q => run3_count F w p q⟩
  · rw [if_neg h1]
    by_cases h2 : w = 1 ∧ d = 1
    · rw [if_pos h2, h2.1, h2.2]
      by_cases hw : h = 0
      · refine ⟨_, rfl, fun q => ?_⟩
        subst hw
        simp only [run3, List.count_nil, box3, Nat.cast_zero, ind_empty, zero_mul, mul_zero]
      · rw [F.v1.dir (by omega)]
        refine ⟨_, rfl, fun q => ?_⟩
        rw [run3_count F.swap12 h p q]
        unfold box3; ring
    · rw [if_neg h2]
      have h3 : w = 1 ∧ h = 1 := by omega
      rw [if_pos h3, h3.1, h3.2]
      by_cases hw : d = 0
      · refine ⟨_, rfl, fun q => ?_⟩
        subst hw
        simp only [run3, List.count_nil, box3, Nat.cast_zero, ind_empty, mul_zero]
      · rw [F.t1.dir (by omega)]
        refine ⟨_, rfl, fun q => ?_⟩
        rw [run3_count F.rot' d p q]
        unfold box3; ring

/-! ## joining the pieces -/

section Join
variable {u v t : V3} (F : Frame3 u v t) {p : V3} {w h d e f g : Nat}

/-- far part along an edge -/
theorem ind_far (i : Int) (he : e ≤ w) : ind 0 ((w - e : Nat) : Int) (i - e) = ind e w i := by
  apply ind_congr; omega

/-- a part traversed backwards -/
theorem ind_back (i : Int) : ind 0 (e : Int) (-(i - ((e : Int) - 1))) = ind 0 e i := by
  apply ind_congr; omega

/-- the far part traversed backwards -/
theorem ind_farback (i : Int) (he : e ≤ w) : ind 0 ((w - e : Nat) : Int) (-(i - ((w : Int) - 1))) = ind e w i := by
  apply ind_congr; omega

include F

theorem fills_wide (hbase : ¬ ((h = 1 ∧ d = 1) ∨ (w = 1 ∧ d = 1) ∨ (w = 1 ∧ h = 1)))
    (hc : 2 * w > 3 * h ∧ 2 * w > 3 * d) (he : even3 (sc3 w u) = sc3 e u) (hew : e ≤ w)
    (f1 : Fills3 (generate3d p (sc3 e u) (sc3 h v) (sc3 d t)) p u v t e h d)
    (f2 : Fills3 (generate3d (p + sc3 e u) (sc3 (w - e) u) (sc3 h v) (sc3 d t)) (p + sc3 e u) u v t (w - e) h d) :
    Fills3 (generate3d p (sc3 w u) (sc3 h v) (sc3 d t)) p u v t w h d := by
  obtain ⟨l1, e1, c1⟩ := f1
  obtain ⟨l2, e2, c2⟩ := f2
  rw [generate3d]
  dsimp only
  rw [F.u1.len, F.v1.len, F.t1.len, he, if_neg (by omega), if_neg (by omega), if_neg (by omega), if_pos hc,
    sc3_sub hew, e1, e2]
  refine ⟨_, rfl, fun q => ?_⟩
  rw [List.count_append, c1, c2]
  unfold box3
  rw [dot3_shift, dot3_shift, dot3_shift, dot3_sc, dot3_sc, dot3_sc, F.u1.dot_self, F.uv, F.ut, mul_one, mul_zero,
    sub_zero, sub_zero, ind_far _ hew, ind_split (e := e) (w := w) (by omega) (by omega)]
  ring

theorem fills_hsplit (hw : 0 < w) (hh : 0 < h)
    (hbase : ¬ ((h = 1 ∧ d = 1) ∨ (w = 1 ∧ d = 1) ∨ (w = 1 ∧ h = 1)))
    (hc : ¬ (2 * w > 3 * h ∧ 2 * w > 3 * d)) (hc2 : 3 * h > 4 * d)
    (he : even3 (sc3 w u) = sc3 e u) (hew : e ≤ w) (hf : even3 (sc3 h v) = sc3 f v) (hfh : f ≤ h)
    (f1 : Fills3 (generate3d p (sc3 f v) (sc3 d t) (sc3 e u)) p v t u f d e)
    (f2 : Fills3 (generate3d (p + sc3 f v) (sc3 w u) (sc3 (h - f) v) (sc3 d t)) (p + sc3 f v) u v t w (h - f) d)
    (f3 : Fills3 (generate3d (p + (sc3 w u - u) + (sc3 f v - v)) (sc3 f (-v)) (sc3 d t) (sc3 (w - e) (-u)))
      (p + (sc3 w u - u) + (sc3 f v - v)) (-v) t (-u) f d (w - e)) :
    Fills3 (generate3d p (sc3 w u) (sc3 h v) (sc3 d t)) p u v t w h d := by
  obtain ⟨l1, e1, c1⟩ := f1
  obtain ⟨l2, e2, c2⟩ := f2
  obtain ⟨l3, e3, c3⟩ := f3
  rw [generate3d]
  dsimp only
  rw [F.u1.len, F.v1.len, F.t1.len, he, hf, if_neg (by omega), if_neg (by omega), if_neg (by omega), if_neg hc, if_pos hc2,
    F.u1.dir hw, F.v1.dir hh, sc3_sub hew, sc3_sub hfh, sc3_neg, sc3_neg, e1, e2, e3]
  refine ⟨_, rfl, fun q => ?_⟩
  show List.count q (l1 ++ l2 ++ l3) = _
  rw [List.count_append, List.count_append, c1, c2, c3]
  unfold box3
  simp only [dot3_shift, dot3_neg, dot3_sub (sc3 _ _) _ _, dot3_sc, F.u1.dot_self, F.v1.dot_self, F.t1.dot_self, F.uv, F.ut, F.vt, F.vu, F.tu,
    F.tv, mul_one, mul_zero, sub_zero, ind_far _ hew, ind_far _ hfh, ind_back, ind_farback _ hew]
  rw [ind_split (e := e) (w := w) (by omega) (by omega), ind_split (e := f) (w := h) (by omega) (by omega)]
  ring

theorem fills_dsplit (hw : 0 < w) (hd : 0 < d)
    (hbase : ¬ ((h = 1 ∧ d = 1) ∨ (w = 1 ∧ d = 1) ∨ (w = 1 ∧ h = 1)))
    (hc : ¬ (2 * w > 3 * h ∧ 2 * w > 3 * d)) (hc2 : ¬ 3 * h > 4 * d) (hc3 : 3 * d > 4 * h)
    (he : even3 (sc3 w u) = sc3 e u) (hew : e ≤ w) (hg : even3 (sc3 d t) = sc3 g t) (hgd : g ≤ d)
    (f1 : Fills3 (generate3d p (sc3 g t) (sc3 e u) (sc3 h v)) p t u v g e h)
    (f2 : Fills3 (generate3d (p + sc3 g t) (sc3 w u) (sc3 h v) (sc3 (d - g) t)) (p + sc3 g t) u v t w h (d - g))
    (f3 : Fills3 (generate3d (p + (sc3 w u - u) + (sc3 g t - t)) (sc3 g (-t)) (sc3 (w - e) (-u)) (sc3 h v))
      (p + (sc3 w u - u) + (sc3 g t - t)) (-t) (-u) v g (w - e) h) :
    Fills3 (generate3d p (sc3 w u) (sc3 h v) (sc3 d t)) p u v t w h d := by
  obtain ⟨l1, e1, c1⟩ := f1
  obtain ⟨l2, e2, c2⟩ := f2
  obtain ⟨l3, e3, c3⟩ := f3
  rw [generate3d]
  dsimp only
  rw [F.u1.len, F.v1.len, F.t1.len, he, hg, if_neg (by omega), if_neg (by omega), if_neg (by omega), if_neg hc, if_neg hc2,
    if_pos hc3, F.u1.dir hw, F.t1.dir hd, sc3_sub hew, sc3_sub hgd, sc3_neg, sc3_neg, e1, e2, e3]
  refine ⟨_, rfl, fun q => ?_⟩
  show List.count q (l1 ++ l2 ++ l3) = _
  rw [List.count_append, List.count_append, c1, c2, c3]
  unfold box3
  simp only [dot3_shift, dot3_neg, dot3_sub (sc3 _ _) _ _, dot3_sc, F.u1.dot_self, F.v1.dot_self, F.t1.dot_self, F.uv, F.ut, F.vt, F.vu, F.tu,
    F.tv, mul_one, mul_zero, sub_zero, ind_far _ hew, ind_far _ hgd, ind_back, ind_farback _ hew]
  rw [ind_split (e := e) (w := w) (by omega) (by omega), ind_split (e := g) (w := d) (by omega) (by omega)]
  ring

theorem fills_regular (hw : 0 < w) (hh : 0 < h) (hd : 0 < d)
    (hbase : ¬ ((h = 1 ∧ d = 1) ∨ (w = 1 ∧ d = 1) ∨ (w = 1 ∧ h = 1)))
    (hc : ¬ (2 * w > 3 * h ∧ 2 * w > 3 * d)) (hc2 : ¬ 3 * h > 4 * d) (hc3 : ¬ 3 * d > 4 * h)
    (he : even3 (sc3 w u) = sc3 e u) (hew : e ≤ w) (hf : even3 (sc3 h v) = sc3 f v) (hfh : f ≤ h)
    (hg : even3 (sc3 d t) = sc3 g t) (hgd : g ≤ d)
    (f1 : Fills3 (generate3d p (sc3 f v) (sc3 g t) (sc3 e u)) p v t u f g e)
    (f2 : Fills3 (generate3d (p + sc3 f v) (sc3 d t) (sc3 e u) (sc3 (h - f) v)) (p + sc3 f v) t u v d e (h - f))
    (f3 : Fills3 (generate3d (p + (sc3 f v - v) + (sc3 d t - t)) (sc3 w u) (sc3 f (-v)) (sc3 (d - g) (-t)))
      (p + (sc3 f v - v) + (sc3 d t - t)) u (-v) (-t) w f (d - g))
    (f4 : Fills3 (generate3d (p + (sc3 w u - u) + sc3 f v + (sc3 d t - t)) (sc3 d (-t)) (sc3 (w - e) (-u)) (sc3 (h - f) v))
      (p + (sc3 w u - u) + sc3 f v + (sc3 d t - t)) (-t) (-u) v d (w - e) (h - f))
    (f5 : Fills3 (generate3d (p + (sc3 w u - u) + (sc3 f v - v)) (sc3 f (-v)) (sc3 g t) (sc3 (w - e) (-u)))
      (p + (sc3 w u - u) + (sc3 f v - v)) (-v) t (-u) f g (w - e)) :
    Fills3 (generate3d p (sc3 w u) (sc3 h v) (sc3 d t)) p u v t w h d := by
  obtain ⟨l1, e1, c1⟩ := f1
  obtain ⟨l2, e2, c2⟩ := f2
  obtain ⟨l3, e3, c3⟩ := f3
  obtain ⟨l4, e4, c4⟩ := f4
  obtain ⟨l5, e5, c5⟩ := f5
  rw [generate3d]
  dsimp only
  rw [F.u1.len, F.v1.len, F.t1.len, he, hf, hg, if_neg (by omega), if_neg (by omega), if_neg (by omega), if_neg hc, if_neg hc2,
    if_neg hc3, F.u1.dir hw, F.v1.dir hh, F.t1.dir hd, sc3_sub hew, sc3_sub hfh, sc3_sub hgd, sc3_neg, sc3_neg, sc3_neg, sc3_neg,
    e1, e2, e3, e4, e5]
  refine ⟨_, rfl, fun q => ?_⟩
  show List.count q (l1 ++ l2 ++ l3 ++ l4 ++ l5) = _
  rw [List.count_append, List.count_append, List.count_append, List.count_append, c1, c2, c3, c4, c5]
  unfold box3
  simp only [dot3_shift, dot3_neg, dot3_sub (sc3 _ _) _ _, dot3_sc, F.u1.dot_self, F.v1.dot_self, F.t1.dot_self, F.uv, F.ut, F.vt, F.vu, F.tu,
    F.tv, mul_one, mul_zero, sub_zero, ind_far _ hew, ind_far _ hfh, ind_far _ hgd, ind_back, ind_farback _ hew, ind_farback _ hgd]
  rw [ind_split (e := e) (w := w) (by omega) (by omega), ind_split (e := f) (w := h) (by omega) (by omega),
    ind_split (e := g) (w := d) (by omega) (by omega)]
  ring

end Join

/-! ## the induction -/

/-- boxes of size zero in one direction that occur -/
theorem fills_zero {u v t : V3} (F : Frame3 u v t) (p : V3) {w h d : Nat}
    (hz : (w = 2 ∧ h = 1 ∧ d = 0) ∨ (w = 2 ∧ h = 0 ∧ d = 1) ∨ (w = 3 ∧ h = 0 ∧ d = 1) ∨ (w = 2 ∧ h = 2 ∧ d = 0)
      ∨ (w = 2 ∧ h = 0 ∧ d = 2)) : Fills3 (generate3d p (sc3 w u) (sc3 h v) (sc3 d t)) p u v t w h d := by
  have z210 : ∀ {u v t : V3} (_ : Frame3 u v t) (p : V3),
      Fills3 (generate3d p (sc3 2 u) (sc3 1 v) (sc3 0 t)) p u v t 2 1 0 := by
    intro u v t F p
    obtain ⟨e, he, c1, c2, -⟩ := F.u1.even 2
    obtain rfl : e = 1 := by omega
    exact fills_wide F (by omega) (by omega) he (by omega) (fills_base F _ (by omega)) (fills_base F _ (by omega))
  have z201 : ∀ {u v t : V3} (_ : Frame3 u v t) (p : V3),
      Fills3 (generate3d p (sc3 2 u) (sc3 0 v) (sc3 1 t)) p u v t 2 0 1 := by
    intro u v t F p
    obtain ⟨e, he, c1, c2, -⟩ := F.u1.even 2
    obtain rfl : e = 1 := by omega
    exact fills_wide F (by omega) (by omega) he (by omega) (fills_base F _ (by omega)) (fills_base F _ (by omega))
  rcases hz with ⟨rfl, rfl, rfl⟩ | ⟨rfl, rfl, rfl⟩ | ⟨rfl, rfl, rfl⟩ | ⟨rfl, rfl, rfl⟩ | ⟨rfl, rfl, rfl⟩
  · exact z210 F p
  · exact z201 F p
  · obtain ⟨e, he, c1, c2, c3, c4, c5, c6, c7⟩ := F.u1.even 3
    obtain rfl : e = 2 := by omega
    exact fills_wide F (by omega) (by omega) he (by omega) (z201 F _) (fills_base F _ (by omega))
  · obtain ⟨e, he, c1, c2, -⟩ := F.u1.even 2
    obtain rfl : e = 1 := by omega
    obtain ⟨f, hf, d1, d2, -⟩ := F.v1.even 2
    obtain rfl : f = 1 := by omega
    exact fills_hsplit F (by omega) (by omega) (by omega) (by omega) (by omega) he (by omega) hf (by omega)
      (fills_base F.rot _ (by omega)) (z210 F _) (fills_base F.rot.negu.negt _ (by omega))
  · obtain ⟨e, he, c1, c2, -⟩ := F.u1.even 2
    obtain rfl : e = 1 := by omega
    obtain ⟨g, hg, d1, d2, -⟩ := F.t1.even 2
    obtain rfl : g = 1 := by omega
    exact fills_dsplit F (by omega) (by omega) (by omega) (by omega) (by omega) (by omega) he (by omega) hg (by omega)
      (fills_base F.rot' _ (by omega)) (z201 F _) (fills_base F.rot'.negu.negv _ (by omega))

/-- boxes that occur in the recursion: the first edge is not much shorter than the others -/
def Ok3 (w h d : Nat) : Prop :=
  (0 < w ∧ 0 < h ∧ 0 < d ∧ h ≤ 2 * w + 2 ∧ d ≤ 2 * w + 2 ∧ (w % 2 = 1 → 3 * h ≤ 4 * w + 5 ∧ 3 * d ≤ 4 * w + 5))
  ∨ (w = 2 ∧ h = 1 ∧ d = 0) ∨ (w = 2 ∧ h = 0 ∧ d = 1) ∨ (w = 3 ∧ h = 0 ∧ d = 1) ∨ (w = 2 ∧ h = 2 ∧ d = 0)
  ∨ (w = 2 ∧ h = 0 ∧ d = 2) ∨ (w = 1 ∧ h = 1 ∧ d = 0) ∨ (w = 1 ∧ h = 0 ∧ d = 1)

/-- what `Unit3.even` says about the even half -/
def Ev (k e : Nat) : Prop :=
  e ≤ k ∧ (2 ≤ k → 1 ≤ e ∧ e ≤ k - 1) ∧ k ≤ 2 * e + 1 ∧ 2 * e ≤ k + 3
    ∧ (k % 2 = 0 → k ≤ 2 * e ∧ 2 * e ≤ k + 2) ∧ (k = 3 → e = 2) ∧ (3 ≤ k → e % 2 = 0)

/-- a box without empty edge that may occur -/
def Pos3 (w h d : Nat) : Prop :=
  0 < w ∧ 0 < h ∧ 0 < d ∧ h ≤ 2 * w + 2 ∧ d ≤ 2 * w + 2 ∧ (w % 2 = 1 → 3 * h ≤ 4 * w + 5 ∧ 3 * d ≤ 4 * w + 5)

section Arith
variable {w h d e f g : Nat}

theorem ok_wide (hp : Pos3 w h d) (he : Ev w e) (hc : 2 * w > 3 * h ∧ 2 * w > 3 * d) :
    Pos3 e h d ∧ Pos3 (w - e) h d ∧ e < w ∧ 0 < e := by
  unfold Pos3 Ev at *
  obtain ⟨p1, p2, p3, p4, p5, p6⟩ := hp
  obtain ⟨e1, e2, e3, e4, e5, e6, e7⟩ := he
  refine ⟨⟨?_, ?_, ?_, ?_, ?_, ?_⟩, ⟨?_, ?_, ?_, ?_, ?_, ?_⟩, ?_, ?_⟩ <;> omega

theorem ok_hsplit (hp : Pos3 w h d) (hw : 2 ≤ w) (he : Ev w e) (hf : Ev h f) (hc : ¬ (2 * w > 3 * h ∧ 2 * w > 3 * d))
    (hc2 : 3 * h > 4 * d) :
    Pos3 f d e ∧ Pos3 w (h - f) d ∧ Pos3 f d (w - e) ∧ e < w ∧ f < h ∧ 0 < e ∧ 0 < f := by
  have hc' : 2 * w ≤ 3 * h := by omega
  clear hc
  unfold Pos3 Ev at *
  obtain ⟨p1, p2, p3, p4, p5, p6⟩ := hp
  obtain ⟨e1, e2, e3, e4, e5, e6, e7⟩ := he
  obtain ⟨f1, f2, f3, f4, f5, f6, f7⟩ := hf
  refine ⟨⟨?_, ?_, ?_, ?_, ?_, ?_⟩, ⟨?_, ?_, ?_, ?_, ?_, ?_⟩, ⟨?_, ?_, ?_, ?_, ?_, ?_⟩, ?_, ?_, ?_, ?_⟩ <;> omega

theorem ok_dsplit (hp : Pos3 w h d) (hw : 2 ≤ w) (he : Ev w e) (hg : Ev d g) (hc : ¬ (2 * w > 3 * h ∧ 2 * w > 3 * d))
    (hc3 : 3 * d > 4 * h) :
    Pos3 g e h ∧ Pos3 w h (d - g) ∧ Pos3 g (w - e) h ∧ e < w ∧ g < d ∧ 0 < e ∧ 0 < g := by
  have hc' : 2 * w ≤ 3 * d := by omega
  clear hc
  unfold Pos3 Ev at *
  obtain ⟨p1, p2, p3, p4, p5, p6⟩ := hp
  obtain ⟨e1, e2, e3, e4, e5, e6, e7⟩ := he
  obtain ⟨f1, f2, f3, f4, f5, f6, f7⟩ := hg
  refine ⟨⟨?_, ?_, ?_, ?_, ?_, ?_⟩, ⟨?_, ?_, ?_, ?_, ?_, ?_⟩, ⟨?_, ?_, ?_, ?_, ?_, ?_⟩, ?_, ?_, ?_, ?_⟩ <;> omega

theorem ok_regular (hp : Pos3 w h d) (hw : 2 ≤ w) (he : Ev w e) (hf : Ev h f) (hg : Ev d g) (hb : ¬ (h = 1 ∧ d = 1))
    (hc : ¬ (2 * w > 3 * h ∧ 2 * w > 3 * d)) (hc2 : ¬ 3 * h > 4 * d) (hc3 : ¬ 3 * d > 4 * h) :
    (Pos3 f g e ∧ Pos3 d e (h - f) ∧ Pos3 w f (d - g) ∧ Pos3 d (w - e) (h - f) ∧ Pos3 f g (w - e))
      ∧ e < w ∧ f < h ∧ g < d ∧ 0 < e ∧ 0 < f ∧ 0 < g := by
  have hc' : w ≤ 2 * h := by omega
  have hc'' : w ≤ 2 * d := by omega
  have hh : 2 ≤ h := by omega
  have hd : 2 ≤ d := by omega
  have hl : 2 * w ≤ 3 * h ∨ 2 * w ≤ 3 * d := by omega
  clear hc hb
  unfold Pos3 Ev at *
  obtain ⟨p1, p2, p3, p4, p5, p6⟩ := hp
  obtain ⟨e1, e2, e3, e4, e5, e6, e7⟩ := he
  obtain ⟨f1, f2, f3, f4, f5, f6, f7⟩ := hf
  obtain ⟨g1, g2, g3, g4, g5, g6, g7⟩ := hg
  have e2' := e2 hw
  have f2' := f2 hh
  have g2' := g2 hd
  clear e2 f2 g2
  refine ⟨⟨⟨?_, ?_, ?_, ?_, ?_, ?_⟩, ⟨?_, ?_, ?_, ?_, ?_, ?_⟩, ⟨?_, ?_, ?_, ?_, ?_, ?_⟩, ⟨?_, ?_, ?_, ?_, ?_, ?_⟩,
    ⟨?_, ?_, ?_, ?_, ?_, ?_⟩⟩, ?_, ?_, ?_, ?_, ?_, ?_⟩ <;> omega

end Arith

theorem generate3d_fills (n : Nat) : ∀ {u v t : V3} (_ : Frame3 u v t) (p : V3) {w h d : Nat}, w + h + d ≤ n → Ok3 w h d →
    Fills3 (generate3d p (sc3 w u) (sc3 h v) (sc3 d t)) p u v t w h d := by
  induction n with
  | zero => intro u v t F p w h d hn hok; unfold Ok3 at hok; omega
  | succ n ih =>
    intro u v t F p w h d hn hok
    by_cases hbase : (h = 1 ∧ d = 1) ∨ (w = 1 ∧ d = 1) ∨ (w = 1 ∧ h = 1)
    · exact fills_base F p hbase
    rcases hok with hpos | hz
    · have hpos' := hpos
      obtain ⟨hw, hh, hd, j1, j2, j3⟩ := hpos'
      obtain ⟨e, he, hE⟩ := F.u1.even w
      obtain ⟨f, hf, hF⟩ := F.v1.even h
      obtain ⟨g, hg, hG⟩ := F.t1.even d
      by_cases hw2 : 2 ≤ w
      · by_cases hc : 2 * w > 3 * h ∧ 2 * w > 3 * d
        · obtain ⟨a1, a2, a3, a4⟩ := ok_wide hpos hE hc
          exact fills_wide F hbase hc he hE.1 (ih F _ (by omega) (Or.inl a1)) (ih F _ (by omega) (Or.inl a2))
        by_cases hc2 : 3 * h > 4 * d
        · obtain ⟨a1, a2, a3, a4, a5, a6, a7⟩ := ok_hsplit hpos hw2 hE hF hc hc2
          exact fills_hsplit F hw hh hbase hc hc2 he hE.1 hf hF.1 (ih F.rot _ (by omega) (Or.inl a1))
            (ih F _ (by omega) (Or.inl a2)) (ih F.rot.negu.negt _ (by omega) (Or.inl a3))
        by_cases hc3 : 3 * d > 4 * h
        · obtain ⟨a1, a2, a3, a4, a5, a6, a7⟩ := ok_dsplit hpos hw2 hE hG hc hc3
          exact fills_dsplit F hw hd hbase hc hc2 hc3 he hE.1 hg hG.1 (ih F.rot' _ (by omega) (Or.inl a1))
            (ih F _ (by omega) (Or.inl a2)) (ih F.rot'.negu.negv _ (by omega) (Or.inl a3))
        obtain ⟨⟨a1, a2, a3, a4, a5⟩, b1, b2, b3, b4, b5, b6⟩ := ok_regular hpos hw2 hE hF hG (by omega) hc hc2 hc3
        exact fills_regular F hw hh hd hbase hc hc2 hc3 he hE.1 hf hF.1 hg hG.1 (ih F.rot _ (by omega) (Or.inl a1))
          (ih F.rot' _ (by omega) (Or.inl a2)) (ih F.negv.negt _ (by omega) (Or.inl a3))
          (ih F.rot'.negu.negv _ (by omega) (Or.inl a4)) (ih F.rot.negu.negt _ (by omega) (Or.inl a5))
      · obtain rfl : w = 1 := by omega
        have hcases : (h = 2 ∧ d = 2) ∨ (h = 2 ∧ d = 3) ∨ (h = 3 ∧ d = 2) ∨ (h = 3 ∧ d = 3) := by omega
        have hee : e = 0 ∨ e = 1 := by have := hE.1; omega
        unfold Ok3 at ih
        rcases hcases with ⟨rfl, rfl⟩ | ⟨rfl, rfl⟩ | ⟨rfl, rfl⟩ | ⟨rfl, rfl⟩
        · obtain rfl : f = 1 := by have := hF.2.1; omega
          obtain rfl : g = 1 := by have := hG.2.1; omega
          rcases hee with rfl | rfl <;>
          exact fills_regular F hw hh hd hbase (by omega) (by omega) (by omega) he hE.1 hf hF.1 hg hG.1 (ih F.rot _ (by omega) (by omega))
            (ih F.rot' _ (by omega) (by omega)) (ih F.negv.negt _ (by omega) (by omega))
            (ih F.rot'.negu.negv _ (by omega) (by omega)) (ih F.rot.negu.negt _ (by omega) (by omega))
        · obtain rfl : g = 2 := by have := hG.2.1; have := hG.2.2.2.2.2.1; omega
          rcases hee with rfl | rfl <;>
          exact fills_dsplit F hw hd hbase (by omega) (by omega) (by omega) he hE.1 hg hG.1 (ih F.rot' _ (by omega) (by omega))
            (ih F _ (by omega) (by omega)) (ih F.rot'.negu.negv _ (by omega) (by omega))
        · obtain rfl : f = 2 := by have := hF.2.1; have := hF.2.2.2.2.2.1; omega
          rcases hee with rfl | rfl <;>
          exact fills_hsplit F hw hh hbase (by omega) (by omega) he hE.1 hf hF.1 (ih F.rot _ (by omega) (by omega))
            (ih F _ (by omega) (by omega)) (ih F.rot.negu.negt _ (by omega) (by omega))
        · obtain rfl : f = 2 := by have := hF.2.1; have := hF.2.2.2.2.2.1; omega
          obtain rfl : g = 2 := by have := hG.2.1; have := hG.2.2.2.2.2.1; omega
          rcases hee with rfl | rfl <;>
          exact fills_regular F hw hh hd hbase (by omega) (by omega) (by omega) he hE.1 hf hF.1 hg hG.1 (ih F.rot _ (by omega) (by omega))
            (ih F.rot' _ (by omega) (by omega)) (ih F.negv.negt _ (by omega) (by omega))
            (ih F.rot'.negu.negv _ (by omega) (by omega)) (ih F.rot.negu.negt _ (by omega) (by omega))
    · exact fills_zero F p (by omega)

/-! ## two dimensions -/

theorem V2.ext' {a b : V2} (hx : a.x = b.x) (hy : a.y = b.y) : a = b := by
  cases a; cases b; simp_all

def dot2 (a b : V2) : Int := a.x * b.x + a.y * b.y
def sc2 (k : Nat) (u : V2) : V2 := ⟨k * u.x, k * u.y⟩

theorem add2_x (a b : V2) : (a + b).x = a.x + b.x := rfl
theorem add2_y (a b : V2) : (a + b).y = a.y + b.y := rfl
theorem sub2_x (a b : V2) : (a - b).x = a.x - b.x := rfl
theorem sub2_y (a b : V2) : (a - b).y = a.y - b.y := rfl
theorem neg2_x (a : V2) : (-a).x = -a.x := rfl
theorem neg2_y (a : V2) : (-a).y = -a.y := rfl

theorem dot2_shift (q p r u : V2) : dot2 (q - (p + r)) u = dot2 (q - p) u - dot2 r u := by
  unfold dot2; simp only [add2_x, add2_y, sub2_x, sub2_y]; ring
theorem dot2_sub (a b u : V2) : dot2 (a - b) u = dot2 a u - dot2 b u := by
  unfold dot2; simp only [sub2_x, sub2_y]; ring
theorem dot2_neg (a u : V2) : dot2 a (-u) = -dot2 a u := by
  unfold dot2; simp only [neg2_x, neg2_y]; ring
theorem dot2_neg' (a u : V2) : dot2 (-a) u = -dot2 a u := by
  unfold dot2; simp only [neg2_x, neg2_y]; ring
theorem dot2_sc (k : Nat) (a u : V2) : dot2 (sc2 k a) u = k * dot2 a u := by
  unfold dot2 sc2; ring
theorem dot2_comm (a u : V2) : dot2 a u = dot2 u a := by unfold dot2; ring
theorem sc2_sub {e w : Nat} (h : e ≤ w) (u : V2) : sc2 w u - sc2 e u = sc2 (w - e) u := by
  apply V2.ext' <;> simp only [sub2_x, sub2_y, sc2] <;> push_cast [h] <;> ring
theorem sc2_neg (e : Nat) (u : V2) : -sc2 e u = sc2 e (-u) := by
  apply V2.ext' <;> simp only [neg2_x, neg2_y, sc2] <;> ring

/-- one of the four axis directions -/
def Unit2 (u : V2) : Prop := u = ⟨1, 0⟩ ∨ u = ⟨-1, 0⟩ ∨ u = ⟨0, 1⟩ ∨ u = ⟨0, -1⟩

theorem Unit2.neg {u : V2} (h : Unit2 u) : Unit2 (-u) := by
  unfold Unit2
  rcases h with rfl | rfl | rfl | rfl <;> decide

theorem Unit2.dot_self {u : V2} (h : Unit2 u) : dot2 u u = 1 := by
  rcases h with rfl | rfl | rfl | rfl <;> decide

theorem Unit2.len {u : V2} (h : Unit2 u) (k : Nat) : len2 (sc2 k u) = k := by
  rcases h with rfl | rfl | rfl | rfl <;> simp only [len2, sc2] <;> omega

theorem Unit2.dir {u : V2} (h : Unit2 u) {k : Nat} (hk : 0 < k) : dir2 (sc2 k u) = u := by
  have h1 : sgn ((k : Int) * 1) = 1 := by unfold sgn; rw [if_neg (by omega), if_pos (by omega)]
  have h2 : sgn ((k : Int) * -1) = -1 := by unfold sgn; rw [if_pos (by omega)]
  have h3 : sgn ((k : Int) * 0) = 0 := by unfold sgn; rw [if_neg (by omega), if_neg (by omega)]
  rcases h with rfl | rfl | rfl | rfl <;> simp only [dir2, sc2, h1, h2, h3]

theorem Unit2.half {u : V2} (h : Unit2 u) (k : Nat) :
    ∃ e : Nat, half2 (sc2 k u) = sc2 e u ∧ (e = k / 2 ∨ e = (k + 1) / 2) := by
  have hp : ((k : Int) * 1).fdiv 2 = ((k / 2 : Nat) : Int) * 1 := by
    rw [Int.fdiv_eq_ediv_of_nonneg _ (by omega)]; omega
  have hn : ((k : Int) * -1).fdiv 2 = (((k + 1) / 2 : Nat) : Int) * -1 := by
    rw [Int.fdiv_eq_ediv_of_nonneg _ (by omega)]; omega
  have hz : ∀ e : Nat, ((k : Int) * 0).fdiv 2 = (e : Int) * 0 := by
    intro e; rw [mul_zero, mul_zero]; rfl
  rcases h with rfl | rfl | rfl | rfl
  · exact ⟨k / 2, by simp only [half2, sc2, hp, hz (k / 2)], Or.inl rfl⟩
  · exact ⟨(k + 1) / 2, by simp only [half2, sc2, hn, hz ((k + 1) / 2)], Or.inr rfl⟩
  · exact ⟨k / 2, by simp only [half2, sc2, hp, hz (k / 2)], Or.inl rfl⟩
  · exact ⟨(k + 1) / 2, by simp only [half2, sc2, hn, hz ((k + 1) / 2)], Or.inr rfl⟩

theorem sc2_add_dir (e : Nat) (u : V2) : sc2 e u + u = sc2 (e + 1) u := by
  apply V2.ext' <;> simp only [add2_x, add2_y, sc2] <;> push_cast <;> ring

theorem Unit2.even {u : V2} (h : Unit2 u) {k : Nat} (hk : 2 ≤ k) :
    ∃ e : Nat, even2 (sc2 k u) = sc2 e u ∧ 1 ≤ e ∧ e < k := by
  obtain ⟨e, he, hk'⟩ := h.half k
  unfold even2
  rw [he, h.len, h.len]
  by_cases hc : e % 2 = 1 ∧ k > 2
  · rw [if_pos hc, h.dir (by omega), sc2_add_dir]
    exact ⟨e + 1, rfl, by omega, by omega⟩
  · rw [if_neg hc]
    exact ⟨e, rfl, by omega, by omega⟩

structure Frame2 (u v : V2) : Prop where
  u1 : Unit2 u
  v1 : Unit2 v
  uv : dot2 u v = 0

theorem Frame2.vu {u v : V2} (F : Frame2 u v) : dot2 v u = 0 := by rw [dot2_comm]; exact F.uv
theorem Frame2.swap {u v : V2} (F : Frame2 u v) : Frame2 v u := ⟨F.v1, F.u1, F.vu⟩
theorem Frame2.negu {u v : V2} (F : Frame2 u v) : Frame2 (-u) v := ⟨F.u1.neg, F.v1, by rw [dot2_neg', F.uv]; rfl⟩
theorem Frame2.negv {u v : V2} (F : Frame2 u v) : Frame2 u (-v) := F.swap.negu.swap

def box2 (p u v : V2) (w h : Nat) (q : V2) : Nat := ind 0 w (dot2 (q - p) u) * ind 0 h (dot2 (q - p) v)

/-- `l` contains every cell of the rectangle once and no other cell -/
def Fills2 (l : Option (List V2)) (p u v : V2) (w h : Nat) : Prop :=
  ∃ r, l = some r ∧ ∀ q, r.count q = box2 p u v w h q

theorem eq_of_dots2 {u v a b : V2} (F : Frame2 u v) (h1 : dot2 a u = dot2 b u) (h2 : dot2 a v = dot2 b v) : a = b := by
  obtain ⟨hu, hv, uv⟩ := F
  unfold dot2 at *
  rcases hu with rfl | rfl | rfl | rfl <;> rcases hv with rfl | rfl | rfl | rfl <;>
    first
    | (exfalso; revert uv; decide)
    | (apply V2.ext' <;> simp only at h1 h2 ⊢ <;> omega)

theorem run2_count {u v : V2} (F : Frame2 u v) (n : Nat) (p q : V2) : (run2 p u n).count q = box2 p u v n 1 q := by
  induction n generalizing p with
  | zero => simp only [run2, List.count_nil, box2, Nat.cast_zero, ind_empty, zero_mul]
  | succ n ih =>
    rw [run2, List.count_cons, ih]
    unfold box2
    rw [dot2_shift, dot2_shift, F.u1.dot_self, F.uv, sub_zero]
    rw [ind_split (e := 1) (w := ((n + 1 : Nat) : Int)) (by omega) (by omega)]
    rw [ind_congr (a := 0) (b := (n : Int)) (i := dot2 (q - p) u - 1) (a' := 1) (b' := ((n + 1 : Nat) : Int))
      (i' := dot2 (q - p) u) (by omega)]
    rw [add_mul, add_comm]
    congr 1
    by_cases h : p = q
    · subst h
      have z : ∀ w, dot2 (p - p) w = 0 := by intro w; rw [dot2_sub, sub_self]
      rw [z, z]; simp [ind]
    · have hb : (p == q) = false := by simpa using h
      rw [hb, if_neg Bool.false_ne_true]
      unfold ind
      by_cases c1 : 0 ≤ dot2 (q - p) u ∧ dot2 (q - p) u < 1
      · by_cases c2 : 0 ≤ dot2 (q - p) v ∧ dot2 (q - p) v < ((1 : Nat) : Int)
        · exfalso
          apply h
          have z : ∀ w, dot2 (q - p) w = dot2 q w - dot2 p w := fun w => dot2_sub _ _ _
          rw [z] at c1 c2
          exact eq_of_dots2 F (by omega) (by omega)
        · rw [if_neg c2, mul_zero]
      · rw [if_neg c1, zero_mul]

theorem generate2d_fills (n : Nat) : ∀ {u v : V2} (_ : Frame2 u v) (p : V2) {w h : Nat}, w + h ≤ n → 0 < w → 0 < h →
    Fills2 (generate2d p (sc2 w u) (sc2 h v)) p u v w h := by
  induction n with
  | zero => intro u v F p w h hn hw hh; omega
  | succ n ih =>
    intro u v F p w h hn hw hh
    rw [generate2d]
    dsimp only
    rw [F.u1.len, F.v1.len, F.u1.dir hw, F.v1.dir hh]
    by_cases h1 : h = 1
    · subst h1
      rw [if_pos rfl]
      exact ⟨_, rfl, fun q => run2_count F w p q⟩
    rw [if_neg h1]
    by_cases w1 : w = 1
    · subst w1
      rw [if_pos rfl]
      refine ⟨_, rfl, fun q => ?_⟩
      rw [run2_count F.swap h p q]
      unfold box2; ring
    rw [if_neg w1]
    by_cases hc : 2 * w > 3 * h
    · rw [if_pos hc]
      obtain ⟨e, he, e1, e2⟩ := F.u1.even (k := w) (by omega)
      rw [he, sc2_sub e2.le]
      obtain ⟨l1, a1, c1⟩ := ih F p (w := e) (h := h) (by omega) e1 hh
      obtain ⟨l2, a2, c2⟩ := ih F (p + sc2 e u) (w := w - e) (h := h) (by omega) (by omega) hh
      rw [a1, a2]
      refine ⟨_, rfl, fun q => ?_⟩
      rw [List.count_append, c1, c2]
      unfold box2
      rw [dot2_shift, dot2_shift, dot2_sc, dot2_sc, F.u1.dot_self, F.uv, mul_one, mul_zero, sub_zero, ind_far _ e2.le,
        ind_split (e := e) (w := w) (by omega) (by omega)]
      ring
    · rw [if_neg hc]
      obtain ⟨e, he, he'⟩ := F.u1.half w
      have e1 : 1 ≤ e := by omega
      have e2 : e < w := by omega
      obtain ⟨f, hf, f1, f2⟩ := F.v1.even (k := h) (by omega)
      rw [he, hf, sc2_sub e2.le, sc2_sub f2.le, sc2_neg, sc2_neg]
      obtain ⟨l1, a1, c1⟩ := ih F.swap p (w := f) (h := e) (by omega) f1 e1
      obtain ⟨l2, a2, c2⟩ := ih F (p + sc2 f v) (w := w) (h := h - f) (by omega) hw (by omega)
      obtain ⟨l3, a3, c3⟩ := ih F.swap.negu.negv (p + (sc2 w u - u) + (sc2 f v - v)) (w := f) (h := w - e) (by omega) f1
        (by omega)
      rw [a1, a2, a3]
      refine ⟨_, rfl, fun q => ?_⟩
      show List.count q (l1 ++ l2 ++ l3) = _
      rw [List.count_append, List.count_append, c1, c2, c3]
      unfold box2
      simp only [dot2_shift, dot2_neg, dot2_sub (sc2 _ _) _ _, dot2_sc, F.u1.dot_self, F.v1.dot_self, F.uv, F.vu,
        mul_one, mul_zero, sub_zero, ind_far _ e2.le, ind_far _ f2.le, ind_back, ind_farback _ e2.le]
      rw [ind_split (e := e) (w := w) (by omega) (by omega), ind_split (e := f) (w := h) (by omega) (by omega)]
      ring

end Verif.Hilbert
