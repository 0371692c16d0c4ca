import Mathlib.Algebra.BigOperators.Fin
import Mathlib.Algebra.BigOperators.Ring.Finset
import Verif.Spec.Tiled
import Verif.Proofs.Planar
/-!
# Lemmas for C108: a step of the undivided simulation of a box and of a box made of copies of it
-/
namespace Verif.Tiled
open Verif.Maxwell Verif.Pusher Verif.Deposit Verif.Shape Verif.WholeRun Verif.PicStep Verif.Symmetry Verif.Matter Verif.Planar
open Finset (range)

variable {k : Nat}

/-! ## one axis -/

/-- of the copies of a cell one lies in a given cell of the larger ring if the cell lies there in the smaller ring -/
theorem ring_copies {N m : Nat} (hN : 0 < N) (hm : 0 < m) (i0 c : Int) (y : ℚ) :
    ∑ z : Fin m, (if i0 % ((m * N : Nat) : Int) = (c - (z : Nat) * (N : Int)) % ((m * N : Nat) : Int) then y else 0)
      = if i0 % (N : Int) = c % (N : Int) then y else 0 := by
  have hN' : (0 : Int) < N := by exact_mod_cast hN
  have hm' : (0 : Int) < m := by exact_mod_cast hm
  by_cases h : i0 % (N : Int) = c % (N : Int)
  · rw [if_pos h]
    obtain ⟨w, hw⟩ : (N : Int) ∣ c - i0 := Int.ModEq.dvd h
    have hz0 := Int.emod_nonneg w hm'.ne'
    have hz1 := Int.emod_lt_of_pos w hm'
    have hlt : (w % m).toNat < m := by omega
    rw [Finset.sum_eq_single (⟨(w % m).toNat, hlt⟩ : Fin m)]
    · rw [if_pos]
      have e : (((⟨(w % m).toNat, hlt⟩ : Fin m) : Nat) : Int) = w % m := by
        show (((w % m).toNat : Nat) : Int) = _
        omega
      rw [e]
      refine Int.ModEq.symm (Int.modEq_iff_dvd.mpr ?_)
      refine ⟨-(w / m), ?_⟩
      have hd := Int.mul_ediv_add_emod w m
      have : c = i0 + N * w := by linarith
      rw [this]
      push_cast
      have h2 : w % m = w - m * (w / m) := by linarith
      rw [h2]
      ring
    · intro b _ hb
      rw [if_neg]
      intro he
      apply hb
      have hd : ((m * N : Nat) : Int) ∣ (c - (b : Nat) * (N : Int)) - i0 := Int.ModEq.dvd he
      obtain ⟨v, hv⟩ := hd
      have hbm : ((b : Nat) : Int) < m := by exact_mod_cast b.2
      have : (N : Int) * (w - (b : Nat)) = N * (m * v) := by
        push_cast at hv
        have : c = i0 + N * w := by linarith
        rw [this] at hv
        linarith
      have h3 : w - (b : Nat) = m * v := mul_left_cancel₀ hN'.ne' this
      have h4 : w % m = (b : Nat) := by
        have : w = (b : Nat) + m * v := by linarith
        rw [this, Int.add_mul_emod_self_left]
        exact Int.emod_eq_of_lt (by positivity) hbm
      ext
      show (b : Nat) = (w % m).toNat
      omega
    · intro h; exact absurd (Finset.mem_univ _) h
  · rw [if_neg h]
    refine Finset.sum_eq_zero fun b _ => ?_
    rw [if_neg]
    intro he
    apply h
    have hd : ((m * N : Nat) : Int) ∣ (c - (b : Nat) * (N : Int)) - i0 := Int.ModEq.dvd he
    have hd' : (N : Int) ∣ c - i0 := by
      obtain ⟨v, hv⟩ := hd
      refine ⟨m * v + (b : Nat), ?_⟩
      push_cast at hv
      linarith
    exact (Int.modEq_iff_dvd.mpr hd')

theorem proj_copies {N m : Nat} (hN : 0 < N) (hm : 0 < m) (i0 c : Int) (f : Nat → ℚ) :
    ∑ z : Fin m, proj (wrapIdx (m * N) i0) f ((c - (z : Nat) * (N : Int)) % ((m * N : Nat) : Int)) = proj (wrapIdx N i0) f (c % N) := by
  unfold proj
  rw [Finset.sum_comm]
  refine Finset.sum_congr rfl fun i _ => ?_
  rw [wrapIdx_eq N hN, wrapIdx_eq (m * N) (Nat.mul_pos hm hN)]
  exact ring_copies hN hm _ c (f i)

theorem line_copies {N m : Nat} (hN : 0 < N) (hm : 0 < m) {d : ℚ} (hd : 0 < d) (dt x v : ℚ) (c : Int) :
    ∑ z : Fin m, l0 (m * N) d dt (x + (z : Nat) * (N * d)) v c = l0 N d dt x v c ∧
    ∑ z : Fin m, l1 (m * N) d dt (x + (z : Nat) * (N * d)) v c = l1 N d dt x v c ∧
    ∑ z : Fin m, lc (m * N) d dt (x + (z : Nat) * (N * d)) v c = lc N d dt x v c := by
  have hM := Nat.mul_pos hm hN
  have e : ∀ z : Nat, x + (z : ℚ) * (N * d) = x + (((z : Int) * N : Int) : ℚ) * d := by intro z; push_cast; ring
  refine ⟨?_, ?_, ?_⟩
  · simp only [e, l0_move hM hd]; exact proj_copies hN hm _ c _
  · simp only [e, l1_move hM hd]; exact proj_copies hN hm _ c _
  · simp only [e, lc_move hM hd]; exact proj_copies hN hm _ c _

/-! ## the copies along several axes -/

theorem sum_two {m : Fin 2 → Nat} (A B : Nat → ℚ) :
    ∑ z : (i : Fin 2) → Fin (m i), A (z 0) * B (z 1) = (∑ z : Fin (m 0), A z) * ∑ z : Fin (m 1), B z := by
  have h := Finset.prod_univ_sum (ι := Fin 2) (fun i => (Finset.univ : Finset (Fin (m i)))) (fun i j => if i = 0 then A j else B j)
  rw [Fin.prod_univ_two, Fintype.piFinset_univ] at h
  simp only [Fin.prod_univ_two] at h
  simpa using h.symm

theorem sum_three {m : Fin 3 → Nat} (A B C : Nat → ℚ) :
    ∑ z : (i : Fin 3) → Fin (m i), A (z 0) * B (z 1) * C (z 2)
      = (∑ z : Fin (m 0), A z) * (∑ z : Fin (m 1), B z) * ∑ z : Fin (m 2), C z := by
  have h := Finset.prod_univ_sum (ι := Fin 3) (fun i => (Finset.univ : Finset (Fin (m i))))
    (fun i j => if i = 0 then A j else if i = 1 then B j else C j)
  rw [Fin.prod_univ_three, Fintype.piFinset_univ] at h
  simp only [Fin.prod_univ_three] at h
  simpa using h.symm

theorem x_copies {m : Fin 2 → Nat} (Q : ℚ) (A B0 B1 : Nat → ℚ) :
    ∑ z : (i : Fin 2) → Fin (m i), Q * (A (z 0) * (1 / 2 * (B0 (z 1) + B1 (z 1))))
      = Q * ((∑ z : Fin (m 0), A z) * (1 / 2 * ((∑ z : Fin (m 1), B0 z) + ∑ z : Fin (m 1), B1 z))) := by
  have e : ∀ a b0 b1 : ℚ, Q * (a * (1 / 2 * (b0 + b1))) = Q / 2 * (a * b0) + Q / 2 * (a * b1) := by intros; ring
  simp only [e, Finset.sum_add_distrib, ← Finset.mul_sum]
  rw [sum_two A B0, sum_two A B1]

theorem y_copies {m : Fin 2 → Nat} (Q : ℚ) (A0 A1 B : Nat → ℚ) :
    ∑ z : (i : Fin 2) → Fin (m i), Q * (1 / 2 * (A0 (z 0) + A1 (z 0)) * B (z 1))
      = Q * (1 / 2 * ((∑ z : Fin (m 0), A0 z) + ∑ z : Fin (m 0), A1 z) * ∑ z : Fin (m 1), B z) := by
  have e : ∀ a0 a1 b : ℚ, Q * (1 / 2 * (a0 + a1) * b) = Q / 2 * (a0 * b) + Q / 2 * (a1 * b) := by intros; ring
  simp only [e, Finset.sum_add_distrib, ← Finset.mul_sum]
  rw [sum_two A0 B, sum_two A1 B]

theorem z_copies {m : Fin 2 → Nat} (Q : ℚ) (A0 A1 B0 B1 : Nat → ℚ) :
    ∑ z : (i : Fin 2) → Fin (m i), (Q * (1 / 2 * (A0 (z 0) + A1 (z 0)) * (1 / 2 * (B0 (z 1) + B1 (z 1))))
        + Q * (1 / 12) * ((A1 (z 0) - A0 (z 0)) * (B1 (z 1) - B0 (z 1))))
      = Q * (1 / 2 * ((∑ z : Fin (m 0), A0 z) + ∑ z : Fin (m 0), A1 z) * (1 / 2 * ((∑ z : Fin (m 1), B0 z) + ∑ z : Fin (m 1), B1 z)))
        + Q * (1 / 12) * (((∑ z : Fin (m 0), A1 z) - ∑ z : Fin (m 0), A0 z) * ((∑ z : Fin (m 1), B1 z) - ∑ z : Fin (m 1), B0 z)) := by
  have e : ∀ a0 a1 b0 b1 : ℚ, Q * (1 / 2 * (a0 + a1) * (1 / 2 * (b0 + b1))) + Q * (1 / 12) * ((a1 - a0) * (b1 - b0))
      = Q / 3 * (a0 * b0) + Q / 6 * (a0 * b1) + Q / 6 * (a1 * b0) + Q / 3 * (a1 * b1) := by intros; ring
  simp only [e, Finset.sum_add_distrib, ← Finset.mul_sum]
  rw [sum_two A0 B0, sum_two A0 B1, sum_two A1 B0, sum_two A1 B1]

theorem j2_copies {N m : Fin 2 → Nat} (hN : ∀ a, 0 < N a) (hm : ∀ a, 0 < m a) {d : Fin 2 → ℚ} (hd : ∀ a, 0 < d a) (dt q : ℚ)
    (x : Fin 2 → ℚ) (u : Mom) (f : Fin 3) (c : Fin 2 → Int) :
    ∑ z : (i : Fin 2) → Fin (m i), j2 (fun a => m a * N a) d dt q ⟨fun i => x i + (z i : Nat) * (N i * d i), u⟩ f c
      = j2 N d dt q ⟨x, u⟩ f c := by
  obtain ⟨a0, a1, ac⟩ := line_copies (hN 0) (hm 0) (hd 0) dt (x 0) u.vx (c 0)
  obtain ⟨b0, b1, bc⟩ := line_copies (hN 1) (hm 1) (hd 1) dt (x 1) u.vy (c 1)
  unfold j2 lm
  dsimp only
  rw [← a0, ← a1, ← ac, ← b0, ← b1, ← bc]
  match f with
  | 0 =>
    exact x_copies _ (fun z => lc (m 0 * N 0) (d 0) dt (x 0 + (z : Nat) * (N 0 * d 0)) u.vx (c 0))
      (fun z => l0 (m 1 * N 1) (d 1) dt (x 1 + (z : Nat) * (N 1 * d 1)) u.vy (c 1))
      (fun z => l1 (m 1 * N 1) (d 1) dt (x 1 + (z : Nat) * (N 1 * d 1)) u.vy (c 1))
  | 1 =>
    exact y_copies _ (fun z => l0 (m 0 * N 0) (d 0) dt (x 0 + (z : Nat) * (N 0 * d 0)) u.vx (c 0))
      (fun z => l1 (m 0 * N 0) (d 0) dt (x 0 + (z : Nat) * (N 0 * d 0)) u.vx (c 0))
      (fun z => lc (m 1 * N 1) (d 1) dt (x 1 + (z : Nat) * (N 1 * d 1)) u.vy (c 1))
  | 2 =>
    exact z_copies _ (fun z => l0 (m 0 * N 0) (d 0) dt (x 0 + (z : Nat) * (N 0 * d 0)) u.vx (c 0))
      (fun z => l1 (m 0 * N 0) (d 0) dt (x 0 + (z : Nat) * (N 0 * d 0)) u.vx (c 0))
      (fun z => l0 (m 1 * N 1) (d 1) dt (x 1 + (z : Nat) * (N 1 * d 1)) u.vy (c 1))
      (fun z => l1 (m 1 * N 1) (d 1) dt (x 1 + (z : Nat) * (N 1 * d 1)) u.vy (c 1))

theorem x_copies3 {m : Fin 3 → Nat} (Q : ℚ) (A B0 B1 C0 C1 : Nat → ℚ) :
    ∑ z : (i : Fin 3) → Fin (m i), Q * (A (z 0) * tw (B0 (z 1)) (B1 (z 1)) (C0 (z 2)) (C1 (z 2)))
      = Q * ((∑ z : Fin (m 0), A z) * tw (∑ z : Fin (m 1), B0 z) (∑ z : Fin (m 1), B1 z) (∑ z : Fin (m 2), C0 z) (∑ z : Fin (m 2), C1 z)) := by
  have e : ∀ a b0 b1 c0 c1, Q * (a * tw b0 b1 c0 c1)
      = Q / 3 * (a * b0 * c0) + Q / 6 * (a * b1 * c0) + Q / 6 * (a * b0 * c1) + Q / 3 * (a * b1 * c1) := by
    intros; unfold tw; ring
  simp only [e, Finset.sum_add_distrib, ← Finset.mul_sum]
  rw [sum_three A B0 C0, sum_three A B1 C0, sum_three A B0 C1, sum_three A B1 C1]

theorem y_copies3 {m : Fin 3 → Nat} (Q : ℚ) (A0 A1 B C0 C1 : Nat → ℚ) :
    ∑ z : (i : Fin 3) → Fin (m i), Q * (B (z 1) * tw (A0 (z 0)) (A1 (z 0)) (C0 (z 2)) (C1 (z 2)))
      = Q * ((∑ z : Fin (m 1), B z) * tw (∑ z : Fin (m 0), A0 z) (∑ z : Fin (m 0), A1 z) (∑ z : Fin (m 2), C0 z) (∑ z : Fin (m 2), C1 z)) := by
  have e : ∀ a0 a1 b c0 c1, Q * (b * tw a0 a1 c0 c1)
      = Q / 3 * (a0 * b * c0) + Q / 6 * (a1 * b * c0) + Q / 6 * (a0 * b * c1) + Q / 3 * (a1 * b * c1) := by
    intros; unfold tw; ring
  simp only [e, Finset.sum_add_distrib, ← Finset.mul_sum]
  rw [sum_three A0 B C0, sum_three A1 B C0, sum_three A0 B C1, sum_three A1 B C1]

theorem z_copies3 {m : Fin 3 → Nat} (Q : ℚ) (A0 A1 B0 B1 C : Nat → ℚ) :
    ∑ z : (i : Fin 3) → Fin (m i), Q * (C (z 2) * tw (A0 (z 0)) (A1 (z 0)) (B0 (z 1)) (B1 (z 1)))
      = Q * ((∑ z : Fin (m 2), C z) * tw (∑ z : Fin (m 0), A0 z) (∑ z : Fin (m 0), A1 z) (∑ z : Fin (m 1), B0 z) (∑ z : Fin (m 1), B1 z)) := by
  have e : ∀ a0 a1 b0 b1 c, Q * (c * tw a0 a1 b0 b1)
      = Q / 3 * (a0 * b0 * c) + Q / 6 * (a1 * b0 * c) + Q / 6 * (a0 * b1 * c) + Q / 3 * (a1 * b1 * c) := by
    intros; unfold tw; ring
  simp only [e, Finset.sum_add_distrib, ← Finset.mul_sum]
  rw [sum_three A0 B0 C, sum_three A1 B0 C, sum_three A0 B1 C, sum_three A1 B1 C]

theorem j3_copies {N m : Fin 3 → Nat} (hN : ∀ a, 0 < N a) (hm : ∀ a, 0 < m a) {d : Fin 3 → ℚ} (hd : ∀ a, 0 < d a) (dt q : ℚ)
    (x : Fin 3 → ℚ) (u : Mom) (f : Fin 3) (c : Fin 3 → Int) :
    ∑ z : (i : Fin 3) → Fin (m i), j3 (fun a => m a * N a) d dt q ⟨fun i => x i + (z i : Nat) * (N i * d i), u⟩ f c
      = j3 N d dt q ⟨x, u⟩ f c := by
  obtain ⟨a0, a1, ac⟩ := line_copies (hN 0) (hm 0) (hd 0) dt (x 0) u.vx (c 0)
  obtain ⟨b0, b1, bc⟩ := line_copies (hN 1) (hm 1) (hd 1) dt (x 1) u.vy (c 1)
  obtain ⟨e0, e1, ec⟩ := line_copies (hN 2) (hm 2) (hd 2) dt (x 2) u.vz (c 2)
  unfold j3
  dsimp only
  rw [← a0, ← a1, ← ac, ← b0, ← b1, ← bc, ← e0, ← e1, ← ec]
  match f with
  | 0 =>
    exact x_copies3 _ (fun z => lc (m 0 * N 0) (d 0) dt (x 0 + (z : Nat) * (N 0 * d 0)) u.vx (c 0))
      (fun z => l0 (m 1 * N 1) (d 1) dt (x 1 + (z : Nat) * (N 1 * d 1)) u.vy (c 1))
      (fun z => l1 (m 1 * N 1) (d 1) dt (x 1 + (z : Nat) * (N 1 * d 1)) u.vy (c 1))
      (fun z => l0 (m 2 * N 2) (d 2) dt (x 2 + (z : Nat) * (N 2 * d 2)) u.vz (c 2))
      (fun z => l1 (m 2 * N 2) (d 2) dt (x 2 + (z : Nat) * (N 2 * d 2)) u.vz (c 2))
  | 1 =>
    exact y_copies3 _ (fun z => l0 (m 0 * N 0) (d 0) dt (x 0 + (z : Nat) * (N 0 * d 0)) u.vx (c 0))
      (fun z => l1 (m 0 * N 0) (d 0) dt (x 0 + (z : Nat) * (N 0 * d 0)) u.vx (c 0))
      (fun z => lc (m 1 * N 1) (d 1) dt (x 1 + (z : Nat) * (N 1 * d 1)) u.vy (c 1))
      (fun z => l0 (m 2 * N 2) (d 2) dt (x 2 + (z : Nat) * (N 2 * d 2)) u.vz (c 2))
      (fun z => l1 (m 2 * N 2) (d 2) dt (x 2 + (z : Nat) * (N 2 * d 2)) u.vz (c 2))
  | 2 =>
    exact z_copies3 _ (fun z => l0 (m 0 * N 0) (d 0) dt (x 0 + (z : Nat) * (N 0 * d 0)) u.vx (c 0))
      (fun z => l1 (m 0 * N 0) (d 0) dt (x 0 + (z : Nat) * (N 0 * d 0)) u.vx (c 0))
      (fun z => l0 (m 1 * N 1) (d 1) dt (x 1 + (z : Nat) * (N 1 * d 1)) u.vy (c 1))
      (fun z => l1 (m 1 * N 1) (d 1) dt (x 1 + (z : Nat) * (N 1 * d 1)) u.vy (c 1))
      (fun z => lc (m 2 * N 2) (d 2) dt (x 2 + (z : Nat) * (N 2 * d 2)) u.vz (c 2))

/-! ## a step -/

/-- the lengths of the larger box -/
theorem long_len {np n np' n' m : Fin k → Nat} {d : Fin k → ℚ} (hN : ∀ a, np' a * n' a = m a * (np a * n a)) :
    len np' n' d = fun i => m i * len np n d i := by
  funext i
  have : ((np' i * n' i : Nat) : ℚ) = ((m i * (np i * n i) : Nat) : ℚ) := by rw [hN i]
  push_cast at this
  unfold len
  rw [this]; ring

theorem per_long {np n np' n' m : Fin k → Nat} (hN : ∀ a, np' a * n' a = m a * (np a * n a)) {G : GF k} (h : G.Per np n) : G.Per np' n' := by
  have hk : ∀ v w : Fin k → Int, (∀ a, v a ≡ w a [ZMOD (np' a * n' a : Int)]) → ∀ a, v a ≡ w a [ZMOD (np a * n a : Int)] := by
    intro v w h a
    refine (h a).of_dvd ?_
    have e : (np' a * n' a : Int) = m a * (np a * n a) := by exact_mod_cast hN a
    rw [e]
    exact Dvd.intro_left _ rfl
  exact ⟨fun f v w hvw => h.e f v w (hk v w hvw), fun f v w hvw => h.b f v w (hk v w hvw), fun f v w hvw => h.j f v w (hk v w hvw)⟩

/-- the total of a quantity over all copies of a place does not change if the place is moved by lengths of the smaller box -/
theorem copies_shift {m : Fin k → Nat} {L : Fin k → ℚ} (hm : ∀ i, 0 < m i) {F : (Fin k → ℚ) → ℚ}
    (hF : ∀ x (z : Fin k → ℤ), F (fun i => x i + z i * (m i * L i)) = F x) (x : Fin k → ℚ) (w : Fin k → ℤ) :
    ∑ z : (i : Fin k) → Fin (m i), F (fun i => x i + w i * L i + (z i : Nat) * L i)
      = ∑ z : (i : Fin k) → Fin (m i), F (fun i => x i + (z i : Nat) * L i) := by
  have hm' : ∀ i, (0 : ℤ) < m i := fun i => by exact_mod_cast hm i
  have lt : ∀ (i : Fin k) (y : ℤ), (y % m i).toNat < m i := fun i y => by
    have h0 := Int.emod_nonneg y (hm' i).ne'
    have h1 := Int.emod_lt_of_pos y (hm' i)
    omega
  let e : ((i : Fin k) → Fin (m i)) → (i : Fin k) → Fin (m i) := fun z i => ⟨(((z i : Nat) + w i) % m i).toNat, lt i _⟩
  have val : ∀ z i, (((e z i : Fin (m i)) : Nat) : ℤ) = ((z i : Nat) + w i) % m i := fun z i => by
    show (((((z i : Nat) + w i) % m i).toNat : Nat) : ℤ) = _
    have h0 := Int.emod_nonneg ((z i : Nat) + w i) (hm' i).ne'
    omega
  have inj : Function.Injective e := by
    intro z z' h
    funext i
    have h1 : ((z i : Nat) + w i) % m i = ((z' i : Nat) + w i) % m i := by rw [← val z i, ← val z' i, h]
    have h2 : ((z i : Nat) : ℤ) % m i = ((z' i : Nat) : ℤ) % m i := Int.ModEq.add_right_cancel' (w i) h1
    rw [Int.emod_eq_of_lt (by positivity) (by exact_mod_cast (z i).2), Int.emod_eq_of_lt (by positivity) (by exact_mod_cast (z' i).2)] at h2
    ext
    exact_mod_cast h2
  refine Fintype.sum_bijective e (Finite.injective_iff_bijective.mp inj) _ _ fun z => ?_
  rw [← hF (fun i => x i + ((e z i : Fin (m i)) : Nat) * L i) fun i => ((z i : Nat) + w i) / m i]
  congr 1
  funext i
  have h1 : (((e z i : Fin (m i)) : Nat) : ℚ) = ((((z i : Nat) + w i) % m i : ℤ) : ℚ) := by rw [← val z i]; push_cast; rfl
  have h2 : ((((z i : Nat) + w i) % m i : ℤ) : ℚ) = ((z i : Nat) + w i : ℚ) - m i * (((((z i : Nat) + w i) / m i : ℤ)) : ℚ) := by
    have := Int.emod_add_mul_ediv ((z i : Nat) + w i) (m i)
    have h3 : (((z i : Nat) + w i) % m i : ℤ) = ((z i : Nat) + w i) - m i * (((z i : Nat) + w i) / m i) := by linarith
    rw [h3]
    push_cast
    rfl
  rw [h1, h2]
  ring

theorem Tiles.of_matter {m : Fin k → Nat} {L : Fin k → ℚ} {a a' b b' : List (Kind × List (Ptc k))} (h : Tiles m L a b)
    (hm : ∀ i, 0 < m i) (ha : SameMatter L a a') (hb : SameMatter (fun i => m i * L i) b b') : Tiles m L a' b' := by
  intro F hF
  rw [← hb F hF, h F hF]
  exact ha _ fun κ x u z => copies_shift hm (F := fun y => F κ y u) (fun y w => hF κ y u w) x z

section
variable {Φ Φ' : Phys k} {np n np' n' m : Fin k → Nat} {d : Fin k → ℚ} (H : Weighs Φ np n d) (H' : Weighs Φ' np' n' d)
  (hN : ∀ a, np' a * n' a = m a * (np a * n a))
  (hFE : Φ'.FE = Φ.FE) (hFB : Φ'.FB = Φ.FB) (hsee : Φ'.see = Φ.see) (hrs : Φ'.rs = Φ.rs) (hdt : Φ'.dt = Φ.dt)
  (hcur : ∀ a b, Tiles m (len np n d) a b → Slow d Φ.dt a → Slow d Φ.dt b → Φ'.cur b = Φ.cur a)
include H H' hN

theorem push_tiles {G : GF k} (hG : G.Per np n) {a b : List (Kind × List (Ptc k))} (h : Tiles m (len np n d) a b)
    (hp : ∀ κ p, pushed Φ' κ G p = pushed Φ κ G p) :
    Tiles m (len np n d) (a.map fun s => (s.1, s.2.map (pushed Φ s.1 G))) (b.map fun s => (s.1, s.2.map (pushed Φ' s.1 G))) := by
  intro F hF
  have move : ∀ (κ : Kind) (x : Fin k → ℚ) (u : Motion) (z : Fin k → ℤ),
      motion (pushed Φ κ G (unitPtc (fun i => x i + z i * len np n d i) u)) = motion (pushed Φ κ G (unitPtc x u)) ∧
      (pushed Φ κ G (unitPtc (fun i => x i + z i * len np n d i) u)).pos = fun i => (pushed Φ κ G (unitPtc x u)).pos i + z i * len np n d i := by
    intro κ x u z
    have hm : (pushed Φ κ G (unitPtc (fun i => x i + z i * len np n d i) u)).mom = (pushed Φ κ G (unitPtc x u)).mom :=
      (H.fate hG κ (p := unitPtc (fun i => x i + z i * len np n d i) u) (q := unitPtc x u) ⟨rfl, fun i => ⟨z i, rfl⟩⟩).1
    refine ⟨by unfold motion; rw [hm], ?_⟩
    funext i
    rw [pushed_pos, pushed_pos, hm]
    show x i + z i * len np n d i + _ + _ = x i + _ + _ + _
    have : (unitPtc (fun i => x i + z i * len np n d i) u).mom = (unitPtc x u).mom := rfl
    rw [this]; ring
  rw [amount_map F (fun κ => pushed Φ' κ G) (fun κ x u => F κ (pushed Φ κ G (unitPtc x u)).pos (motion (pushed Φ κ G (unitPtc x u))))
    (fun κ p => by rw [hp]; rfl) b]
  rw [amount_map (fun κ x u => ∑ z : (i : Fin k) → Fin (m i), F κ (fun i => x i + (z i : Nat) * len np n d i) u) (fun κ => pushed Φ κ G)
    (fun κ x u => ∑ z : (i : Fin k) → Fin (m i), F κ (fun i => (pushed Φ κ G (unitPtc x u)).pos i + (z i : Nat) * len np n d i)
      (motion (pushed Φ κ G (unitPtc x u)))) (fun κ p => rfl) a]
  rw [h _ ?_]
  · refine amount_congr fun s _ p _ => Finset.sum_congr rfl fun z _ => ?_
    have := move s.1 p.pos (motion p) fun i => ((z i : Nat) : ℤ)
    simp only [Int.cast_natCast] at this
    rw [this.1, this.2]
  · intro κ x u z
    have := move κ x u fun i => z i * (m i : ℤ)
    have e : (fun i => x i + ((z i * (m i : ℤ) : ℤ) : ℚ) * len np n d i) = fun i => x i + z i * (m i * len np n d i) := by
      funext i; push_cast; ring
    rw [e] at this
    rw [this.1, this.2, ← hF κ (pushed Φ κ G (unitPtc x u)).pos _ z]
    congr 1
    funext i; push_cast; ring

include hcur hFE hFB hsee hrs hdt

/-- one step: the same fields and copies of the matter give the same fields and copies of the matter -/
theorem step_tiles {W W' : World k} (hper : W.fld.Per np n) (hf : W'.fld = W.fld)
    (hn : Slow d Φ.dt (W.step Φ).cloud) (hn' : Slow d Φ'.dt (W'.step Φ').cloud) (h : Tiles m (len np n d) W.cloud W'.cloud) :
    (W'.step Φ').fld = (W.step Φ).fld ∧ Tiles m (len np n d) (W.step Φ).cloud (W'.step Φ').cloud := by
  have hp : (midField Φ W.fld).Per np n := (hper.stepE H.fe _).stepB H.fb _
  have hmid : midField Φ' W'.fld = midField Φ W.fld := by unfold midField; rw [hFE, hFB, hdt, hf]
  have hc : Tiles m (len np n d) (W.step Φ).cloud (W'.step Φ').cloud := by
    show Tiles _ _ (W.cloud.map fun s => (s.1, s.2.map (pushed Φ s.1 (midField Φ W.fld))))
      (W'.cloud.map fun s => (s.1, s.2.map (pushed Φ' s.1 (midField Φ' W'.fld))))
    rw [hmid]
    exact push_tiles H H' hN hp h fun κ p => by unfold pushed; rw [hsee, hrs, hdt]
  refine ⟨?_, hc⟩
  show GF.step Φ'.FE Φ'.FB Φ'.dt (Φ'.cur (W'.step Φ').cloud) W'.fld = GF.step Φ.FE Φ.FB Φ.dt (Φ.cur (W.step Φ).cloud) W.fld
  rw [hcur _ _ hc hn (hdt ▸ hn'), hf, hFE, hFB, hdt]

theorem run_tiles {W W' : World k} (hper : ∀ i, (World.run Φ W i).fld.Per np n) (hf : W'.fld = W.fld)
    (hs : ∀ i, Slow d Φ.dt (World.run Φ W i).cloud) (hs' : ∀ i, Slow d Φ'.dt (World.run Φ' W' i).cloud)
    (h : Tiles m (len np n d) W.cloud W'.cloud) (i : Nat) :
    (World.run Φ' W' i).fld = (World.run Φ W i).fld ∧ Tiles m (len np n d) (World.run Φ W i).cloud (World.run Φ' W' i).cloud := by
  induction i with
  | zero => exact ⟨hf, h⟩
  | succ i ih => exact step_tiles H H' hN hFE hFB hsee hrs hdt hcur (hper i) ih.1 (hs (i + 1)) (hs' (i + 1)) ih.2
end

/-! ## the currents of the 2D and the 3D simulation -/

theorem cur_tiles2 {np n np' n' m : Fin 2 → Nat} (h0 : ∀ a, 0 < np a * n a) (hm : ∀ a, 0 < m a) (hN : ∀ a, np' a * n' a = m a * (np a * n a))
    {d : Fin 2 → ℚ} (hd : ∀ a, 0 < d a) {dt : ℚ} (hdt : dt ≠ 0) (a b : List (Kind × List (Ptc 2))) (h : Tiles m (len np n d) a b)
    (ha : Slow d dt a) (hb : Slow d dt b) : cur2 (fun a => np' a * n' a) d dt b = cur2 (fun a => np a * n a) d dt a := by
  have h0' : ∀ a, 0 < np' a * n' a := fun a => by rw [hN a]; exact Nat.mul_pos (hm a) (h0 a)
  funext f c
  rw [cur_total2 h0 hd hdt ha, cur_total2 h0' hd hdt hb]
  rw [total_amount fun q p => j2_unit _ d dt q p f c, total_amount fun q p => j2_unit _ d dt q p f c]
  rw [h _ fun κ x u z => ?_]
  · refine amount_congr fun s _ p _ => ?_
    rw [funext hN]
    have := j2_copies h0 hm hd dt s.1.q p.pos (unitPtc p.pos (motion p)).mom f c
    refine Eq.trans (Finset.sum_congr rfl fun z _ => ?_) this
    congr 1
    refine ptc_ext ?_ rfl
    funext i
    show p.pos i + _ * len np n d i = p.pos i + _ * _
    unfold len; push_cast; ring
  · have := j2_shift h0' hd dt κ.q x (unitPtc x u).mom z f c
    rw [long_len hN] at this
    exact this

theorem cur_tiles3 {np n np' n' m : Fin 3 → Nat} (h0 : ∀ a, 2 ≤ np a * n a) (hm : ∀ a, 0 < m a) (hN : ∀ a, np' a * n' a = m a * (np a * n a))
    {d : Fin 3 → ℚ} (hd : ∀ a, 0 < d a) {dt : ℚ} (hdt : dt ≠ 0) (a b : List (Kind × List (Ptc 3))) (h : Tiles m (len np n d) a b)
    (ha : Slow d dt a) (hb : Slow d dt b) : cur3 (fun a => np' a * n' a) d dt b = cur3 (fun a => np a * n a) d dt a := by
  have h0' : ∀ a, 2 ≤ np' a * n' a := fun a => by rw [hN a]; exact (h0 a).trans (Nat.le_mul_of_pos_left _ (hm a))
  have p0 : ∀ a, 0 < np a * n a := fun a => lt_of_lt_of_le (by omega) (h0 a)
  have p0' : ∀ a, 0 < np' a * n' a := fun a => lt_of_lt_of_le (by omega) (h0' a)
  funext f c
  rw [cur_total3 h0 hd hdt ha, cur_total3 h0' hd hdt hb]
  rw [total_amount fun q p => j3_unit _ d dt q p f c, total_amount fun q p => j3_unit _ d dt q p f c]
  rw [h _ fun κ x u z => ?_]
  · refine amount_congr fun s _ p _ => ?_
    rw [funext hN]
    have := j3_copies p0 hm hd dt s.1.q p.pos (unitPtc p.pos (motion p)).mom f c
    refine Eq.trans (Finset.sum_congr rfl fun z _ => ?_) this
    congr 1
    refine ptc_ext ?_ rfl
    funext i
    show p.pos i + _ * len np n d i = p.pos i + _ * _
    unfold len; push_cast; ring
  · have := j3_shift p0' hd dt κ.q x (unitPtc x u).mom z f c
    rw [long_len hN] at this
    exact this

end Verif.Tiled
