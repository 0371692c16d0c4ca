import Verif.Model.Chi
import Mathlib.Tactic.Linarith
import Mathlib.Tactic.Ring
import Mathlib.Tactic.LinearCombination
import Mathlib.Tactic.NormNum
import Mathlib.Tactic.Positivity
import Mathlib.Tactic.FieldSimp
import Mathlib.LinearAlgebra.Matrix.Notation
import Mathlib.Data.Matrix.Mul

/-!
# C61: the quantum parameter is a defined, frame independent number

Specification vocabulary: the squared length of a momentum, and the textbook change of frame along
x for momenta and fields.  Nothing here uses the formula of the code.
-/

namespace Verif.Chi

/-- Squared length. -/
def V3.sq (u : V3) : ℝ := u.x ^ 2 + u.y ^ 2 + u.z ^ 2

/-- Momentum (over mc) seen from a frame moving with velocity `b c` along x; `g` is its gamma. -/
def boostU (g b gamma : ℝ) (u : V3) : V3 := ⟨g * (u.x - b * gamma), u.y, u.z⟩

/-- Energy (over mc²) seen from that frame. -/
def boostGamma (g b gamma : ℝ) (u : V3) : ℝ := g * (gamma - b * u.x)

/-- Electric field seen from that frame. -/
def boostE (c g b : ℝ) (E B : V3) : V3 :=
  ⟨E.x, g * (E.y - b * c * B.z), g * (E.z + b * c * B.y)⟩

/-- Magnetic field seen from that frame. -/
noncomputable def boostB (c g b : ℝ) (E B : V3) : V3 :=
  ⟨B.x, g * (B.y + b * E.z / c), g * (B.z - b * E.y / c)⟩

/-- The radicand is never negative when the momentum is not larger than gamma. -/
theorem radicand_nonneg (c : ℝ) (E B u : V3) (gamma : ℝ) (h : u.sq ≤ gamma ^ 2) :
    0 ≤ radicand c E B u gamma := by
  by_cases hg : gamma = 0
  · have hs : u.x ^ 2 + u.y ^ 2 + u.z ^ 2 ≤ 0 := by simpa [V3.sq, hg] using h
    have hx : u.x = 0 := by nlinarith [sq_nonneg u.x, sq_nonneg u.y, sq_nonneg u.z]
    have hy : u.y = 0 := by nlinarith [sq_nonneg u.x, sq_nonneg u.y, sq_nonneg u.z]
    have hz : u.z = 0 := by nlinarith [sq_nonneg u.x, sq_nonneg u.y, sq_nonneg u.z]
    simp [radicand, hg, hx, hy, hz]
  · set fx := gamma * E.x + (u.y * B.z - u.z * B.y) * c with hfx
    set fy := gamma * E.y + (u.z * B.x - u.x * B.z) * c with hfy
    set fz := gamma * E.z + (u.x * B.y - u.y * B.x) * c with hfz
    have hdot : u.x * fx + u.y * fy + u.z * fz = gamma * (u.x * E.x + u.y * E.y + u.z * E.z) := by
      rw [hfx, hfy, hfz]; ring
    have cs : (u.x * fx + u.y * fy + u.z * fz) ^ 2
        ≤ (u.x ^ 2 + u.y ^ 2 + u.z ^ 2) * (fx ^ 2 + fy ^ 2 + fz ^ 2) := by
      have : (u.x ^ 2 + u.y ^ 2 + u.z ^ 2) * (fx ^ 2 + fy ^ 2 + fz ^ 2)
          - (u.x * fx + u.y * fy + u.z * fz) ^ 2
          = (u.x * fy - u.y * fx) ^ 2 + (u.x * fz - u.z * fx) ^ 2 + (u.y * fz - u.z * fy) ^ 2 := by
        ring
      have h3 : 0 ≤ (u.x * fy - u.y * fx) ^ 2 + (u.x * fz - u.z * fx) ^ 2
          + (u.y * fz - u.z * fy) ^ 2 := by positivity
      linarith
    have hF : 0 ≤ fx ^ 2 + fy ^ 2 + fz ^ 2 := by positivity
    have h1 := mul_le_mul_of_nonneg_right h hF
    have hg2 : 0 < gamma ^ 2 := by positivity
    have h2 : gamma ^ 2 * (u.x * E.x + u.y * E.y + u.z * E.z) ^ 2
        ≤ gamma ^ 2 * (fx ^ 2 + fy ^ 2 + fz ^ 2) := by
      have : gamma ^ 2 * (u.x * E.x + u.y * E.y + u.z * E.z) ^ 2
          = (u.x * fx + u.y * fy + u.z * fz) ^ 2 := by rw [hdot]; ring
      rw [this]; exact cs.trans h1
    have h4 := le_of_mul_le_mul_left h2 hg2
    show 0 ≤ fx ^ 2 + fy ^ 2 + fz ^ 2 - (u.x * E.x + u.y * E.y + u.z * E.z) ^ 2
    linarith

/-- For every field and every momentum with the gamma that belongs to it, of a particle with mass
(`m = 1`: gamma² = 1 + u²) or of a photon (`m = 0`: gamma² = u²), chi is a number and not
negative. -/
theorem chi_defined (factor c : ℝ) (E B u : V3) (gamma m : ℝ) (hf : 0 ≤ factor) (hg : 0 < gamma)
    (hm : gamma ^ 2 = m ^ 2 + u.sq) : ∃ v, chi factor c E B u (1 / gamma) = some v ∧ 0 ≤ v := by
  have hr : 0 ≤ radicand c E B u gamma := radicand_nonneg c E B u gamma (by nlinarith [sq_nonneg m])
  refine ⟨factor * √(radicand c E B u gamma), ?_, mul_nonneg hf (Real.sqrt_nonneg _)⟩
  have h0 : (1 / gamma : ℝ) ≠ 0 := by positivity
  simp only [chi, if_neg h0, one_div_one_div, if_neg (not_lt.mpr hr)]

/-- A particle at rest sees the electric field alone. -/
theorem chi_at_rest (factor c : ℝ) (E B : V3) :
    chi factor c E B ⟨0, 0, 0⟩ 1 = some (factor * √E.sq) := by
  have h : radicand c E B ⟨0, 0, 0⟩ (1 / 1) = E.sq := by simp only [radicand, V3.sq]; ring
  have hn : ¬ E.sq < 0 := not_lt.mpr (by unfold V3.sq; positivity)
  simp only [chi, one_ne_zero, if_false, h, if_neg hn]

/-- Two observers moving along x agree on chi. -/
theorem chi_frame (factor c : ℝ) (E B u : V3) (gamma g b : ℝ) (hc : c ≠ 0) (hg : gamma ≠ 0)
    (hg' : boostGamma g b gamma u ≠ 0) (hb : g ^ 2 * (1 - b ^ 2) = 1) :
    chi factor c (boostE c g b E B) (boostB c g b E B) (boostU g b gamma u)
      (1 / boostGamma g b gamma u) = chi factor c E B u (1 / gamma) := by
  have key : radicand c (boostE c g b E B) (boostB c g b E B) (boostU g b gamma u)
      (boostGamma g b gamma u) = radicand c E B u gamma := by
    have e1 : b * E.z / c * c = b * E.z := by field_simp
    have e2 : b * E.y / c * c = b * E.y := by field_simp
    have hx : boostGamma g b gamma u * (boostE c g b E B).x
        + ((boostU g b gamma u).y * (boostB c g b E B).z
          - (boostU g b gamma u).z * (boostB c g b E B).y) * c
        = g * ((gamma * E.x + (u.y * B.z - u.z * B.y) * c)
          - b * (u.x * E.x + u.y * E.y + u.z * E.z)) := by
      simp only [boostGamma, boostE, boostB, boostU]
      linear_combination (-(u.y * g)) * e2 - (u.z * g) * e1
    have hd : (boostU g b gamma u).x * (boostE c g b E B).x
        + (boostU g b gamma u).y * (boostE c g b E B).y
        + (boostU g b gamma u).z * (boostE c g b E B).z
        = g * ((u.x * E.x + u.y * E.y + u.z * E.z)
          - b * (gamma * E.x + (u.y * B.z - u.z * B.y) * c)) := by
      simp only [boostE, boostU]; ring
    have hy : boostGamma g b gamma u * (boostE c g b E B).y
        + ((boostU g b gamma u).z * (boostB c g b E B).x
          - (boostU g b gamma u).x * (boostB c g b E B).z) * c
        = gamma * E.y + (u.z * B.x - u.x * B.z) * c := by
      simp only [boostGamma, boostE, boostB, boostU]
      linear_combination (g ^ 2 * (u.x - b * gamma)) * e2
        + (gamma * E.y - u.x * B.z * c) * hb
    have hz : boostGamma g b gamma u * (boostE c g b E B).z
        + ((boostU g b gamma u).x * (boostB c g b E B).y
          - (boostU g b gamma u).y * (boostB c g b E B).x) * c
        = gamma * E.z + (u.x * B.y - u.y * B.x) * c := by
      simp only [boostGamma, boostE, boostB, boostU]
      linear_combination (g ^ 2 * (u.x - b * gamma)) * e1
        + (gamma * E.z + u.x * B.y * c) * hb
    simp only [radicand] at *
    rw [hx, hy, hz, hd]
    linear_combination ((gamma * E.x + (u.y * B.z - u.z * B.y) * c) ^ 2
      - (u.x * E.x + u.y * E.y + u.z * E.z) ^ 2) * hb
  simp only [chi, one_div_one_div, key, one_div, inv_eq_zero, hg, hg', if_false, inv_inv]

/-- Turned about z by an angle with cosine `a` and sine `s`. -/
def V3.turn (a s : ℝ) (u : V3) : V3 := ⟨a * u.x - s * u.y, s * u.x + a * u.y, u.z⟩

/-- The axes renamed in a circle. -/
def V3.cyc (u : V3) : V3 := ⟨u.y, u.z, u.x⟩

/-- Turning all vectors about z does not change chi. -/
theorem chi_turn (factor c : ℝ) (E B u : V3) (invGamma a s : ℝ) (h : a ^ 2 + s ^ 2 = 1) :
    chi factor c (E.turn a s) (B.turn a s) (u.turn a s) invGamma = chi factor c E B u invGamma := by
  have key : ∀ g, radicand c (E.turn a s) (B.turn a s) (u.turn a s) g = radicand c E B u g := by
    intro g
    have hx : g * (E.turn a s).x + ((u.turn a s).y * (B.turn a s).z
        - (u.turn a s).z * (B.turn a s).y) * c
        = a * (g * E.x + (u.y * B.z - u.z * B.y) * c)
          - s * (g * E.y + (u.z * B.x - u.x * B.z) * c) := by
      simp only [V3.turn]; ring
    have hy : g * (E.turn a s).y + ((u.turn a s).z * (B.turn a s).x
        - (u.turn a s).x * (B.turn a s).z) * c
        = s * (g * E.x + (u.y * B.z - u.z * B.y) * c)
          + a * (g * E.y + (u.z * B.x - u.x * B.z) * c) := by
      simp only [V3.turn]; ring
    have hz : g * (E.turn a s).z + ((u.turn a s).x * (B.turn a s).y
        - (u.turn a s).y * (B.turn a s).x) * c
        = g * E.z + (u.x * B.y - u.y * B.x) * c := by
      simp only [V3.turn]
      linear_combination (u.x * B.y - u.y * B.x) * c * h
    have hd : (u.turn a s).x * (E.turn a s).x + (u.turn a s).y * (E.turn a s).y
        + (u.turn a s).z * (E.turn a s).z = u.x * E.x + u.y * E.y + u.z * E.z := by
      simp only [V3.turn]
      linear_combination (u.x * E.x + u.y * E.y) * h
    unfold radicand
    rw [hx, hy, hz, hd]
    linear_combination ((g * E.x + (u.y * B.z - u.z * B.y) * c) ^ 2
      + (g * E.y + (u.z * B.x - u.x * B.z) * c) ^ 2) * h
  simp only [chi, key]

/-- Renaming the axes in a circle does not change chi. -/
theorem chi_cyc (factor c : ℝ) (E B u : V3) (invGamma : ℝ) :
    chi factor c E.cyc B.cyc u.cyc invGamma = chi factor c E B u invGamma := by
  have key : ∀ g, radicand c E.cyc B.cyc u.cyc g = radicand c E B u g := by
    intro g; simp only [radicand, V3.cyc]; ring
  simp only [chi, key]

/-! ### every change of frame at once -/

open Matrix in
/-- Specification: the metric of space and time, signature (+,-,-,-). -/
def metric : Matrix (Fin 4) (Fin 4) ℝ := !![1, 0, 0, 0; 0, -1, 0, 0; 0, 0, -1, 0; 0, 0, 0, -1]

open Matrix in
/-- Specification: the field tensor of electrodynamics. -/
noncomputable def tensor (c : ℝ) (E B : V3) : Matrix (Fin 4) (Fin 4) ℝ :=
  !![0, -E.x / c, -E.y / c, -E.z / c; E.x / c, 0, -B.z, B.y; E.y / c, B.z, 0, -B.x; E.z / c, -B.y, B.x, 0]

/-- Specification: the four-momentum over mc. -/
def four (gamma : ℝ) (u : V3) : Fin 4 → ℝ := ![gamma, u.x, u.y, u.z]

open Matrix in
/-- Specification: a change of frame is a linear map that keeps the metric: boosts, rotations, reflections of
space and time and all their products. -/
def IsFrameChange (L : Matrix (Fin 4) (Fin 4) ℝ) : Prop := Lᵀ * metric * L = metric

open Matrix in
theorem radicand_four (c : ℝ) (hc : c ≠ 0) (E B u : V3) (gamma : ℝ) :
    radicand c E B u gamma = -c ^ 2 * ((tensor c E B *ᵥ (metric *ᵥ four gamma u)) ⬝ᵥ
      (metric *ᵥ (tensor c E B *ᵥ (metric *ᵥ four gamma u)))) := by
  simp only [tensor, metric, four, radicand, dotProduct, mulVec, Fin.sum_univ_four, Matrix.of_apply, Matrix.cons_val]
  field_simp
  ring

open Matrix in
/-- C61: every observer computes the same chi: fields, momentum and energy as seen after any change of frame give
the chi of before. -/
theorem chi_every_frame (factor c : ℝ) (hc : c ≠ 0) {L : Matrix (Fin 4) (Fin 4) ℝ} (hL : IsFrameChange L)
    {E B u E' B' u' : V3} {gamma gamma' : ℝ} (hg : gamma ≠ 0) (hg' : gamma' ≠ 0)
    (hF : tensor c E' B' = L * tensor c E B * Lᵀ) (hu : four gamma' u' = L *ᵥ four gamma u) :
    chi factor c E' B' u' (1 / gamma') = chi factor c E B u (1 / gamma) := by
  have key : radicand c E' B' u' gamma' = radicand c E B u gamma := by
    rw [radicand_four c hc, radicand_four c hc]
    have h1 : tensor c E' B' *ᵥ (metric *ᵥ four gamma' u') = L *ᵥ (tensor c E B *ᵥ (metric *ᵥ four gamma u)) := by
      rw [hF, hu]
      simp only [mulVec_mulVec]
      congr 1
      calc L * tensor c E B * Lᵀ * (metric * L) = L * tensor c E B * (Lᵀ * metric * L) := by simp only [Matrix.mul_assoc]
        _ = L * (tensor c E B * metric) := by rw [hL, Matrix.mul_assoc]
    rw [h1]
    congr 1
    generalize tensor c E B *ᵥ (metric *ᵥ four gamma u) = f
    calc (L *ᵥ f) ⬝ᵥ (metric *ᵥ (L *ᵥ f)) = f ⬝ᵥ ((Lᵀ * metric * L) *ᵥ f) := by
          rw [dotProduct_comm, dotProduct_mulVec, ← mulVec_transpose, dotProduct_comm]
          simp only [mulVec_mulVec, Matrix.mul_assoc]
      _ = f ⬝ᵥ (metric *ᵥ f) := by rw [hL]
  have e : ∀ g : ℝ, 1 / (1 / g) = g := fun g => one_div_one_div g
  unfold chi
  rw [if_neg (one_div_ne_zero hg), if_neg (one_div_ne_zero hg')]
  simp only [e, key]

open Matrix in
/-- After a change of frame there are such fields: a changed tensor is the tensor of some fields. -/
theorem fields_every_frame (c : ℝ) (hc : c ≠ 0) (L : Matrix (Fin 4) (Fin 4) ℝ) (E B : V3) :
    ∃ E' B', tensor c E' B' = L * tensor c E B * Lᵀ := by
  have ht : (tensor c E B)ᵀ = -tensor c E B := by
    ext i j
    fin_cases i <;> fin_cases j <;> simp [tensor] <;> ring
  generalize hG : L * tensor c E B * Lᵀ = G
  have hG' : Gᵀ = -G := by
    rw [← hG]
    simp only [transpose_mul, transpose_transpose, ht, Matrix.mul_neg, Matrix.neg_mul, Matrix.mul_assoc]
  have ha : ∀ i j, G j i = -G i j := fun i j => congrFun (congrFun hG' i) j
  have hd : ∀ i, G i i = 0 := fun i => by have := ha i i; linarith
  refine ⟨⟨c * G 1 0, c * G 2 0, c * G 3 0⟩, ⟨G 3 2, G 1 3, G 2 1⟩, ?_⟩
  ext i j
  fin_cases i <;> fin_cases j <;> simp [tensor, hd] <;> first
    | (field_simp; done) | (field_simp; exact (ha _ _).symm) | exact (ha _ _).symm | (rw [ha]; field_simp)

/-- The boosts of `chi_frame` are such changes of frame, and change fields and momenta as said there. -/
theorem boost_frame (c g b : ℝ) (hc : c ≠ 0) (hg : g ^ 2 * (1 - b ^ 2) = 1) (E B u : V3) (gamma : ℝ) :
    IsFrameChange !![g, -g * b, 0, 0; -g * b, g, 0, 0; 0, 0, 1, 0; 0, 0, 0, 1] ∧
    tensor c (boostE c g b E B) (boostB c g b E B) = !![g, -g * b, 0, 0; -g * b, g, 0, 0; 0, 0, 1, 0; 0, 0, 0, 1] * tensor c E B *
      Matrix.transpose !![g, -g * b, 0, 0; -g * b, g, 0, 0; 0, 0, 1, 0; 0, 0, 0, 1] ∧
    four (boostGamma g b gamma u) (boostU g b gamma u) =
      Matrix.mulVec !![g, -g * b, 0, 0; -g * b, g, 0, 0; 0, 0, 1, 0; 0, 0, 0, 1] (four gamma u) := by
  refine ⟨?_, ?_, ?_⟩
  · unfold IsFrameChange metric
    ext i j
    fin_cases i <;> fin_cases j <;> simp [Matrix.mul_apply, Fin.sum_univ_four] <;> first | ring1 | linear_combination hg | linear_combination -hg
  · unfold tensor boostE boostB
    ext i j
    fin_cases i <;> fin_cases j <;> simp [Matrix.mul_apply, Fin.sum_univ_four] <;> try first
      | ring1 | (field_simp; done) | (field_simp; ring1) | (field_simp; linear_combination -E.x * hg) | (field_simp; linear_combination E.x * hg)
  · unfold four boostGamma boostU
    ext i
    fin_cases i <;> simp [Matrix.mulVec, dotProduct, Fin.sum_univ_four] <;> ring

/-! ### all particles -/

theorem updatePatch_map (factor c : ℝ) (l : List Ptl) : updatePatch factor c l =
    l.map fun p => if p.dead then p else { p with chi := chi factor c p.E p.B p.u p.invGamma } := by
  induction l with
  | nil => rfl
  | cons p l ih => rw [updatePatch, ih, List.map_cons]

/-- C61: whichever order the threads take the patches in, every living particle gets the chi of its own fields and
momentum, dead slots and everything else stay as they were. -/
theorem chi_of_all (factor c : ℝ) (n : Nat) (order : List Nat) (ho : order.Perm (List.range n)) (ps : Nat → List Ptl) (i : Nat) :
    updateChi factor c order ps i = if i < n then
      (ps i).map fun p => if p.dead then p else { p with chi := chi factor c p.E p.B p.u p.invGamma } else ps i := by
  have key : ∀ (l : List Nat) (ps : Nat → List Ptl), l.Nodup → updateChi factor c l ps i = if i ∈ l then updatePatch factor c (ps i) else ps i := by
    intro l
    induction l with
    | nil => intro ps _; rfl
    | cons a l ih =>
      intro ps hn
      obtain ⟨h1, h2⟩ := List.nodup_cons.mp hn
      have := ih (Function.update ps a (updatePatch factor c (ps a))) h2
      unfold updateChi at this ⊢
      rw [List.foldl_cons, this]
      by_cases hi : i = a
      · subst hi
        simp [h1]
      · simp [hi]
  rw [key order ps (ho.nodup_iff.mpr List.nodup_range)]
  simp only [ho.mem_iff, List.mem_range, updatePatch_map]

/-- two patches taken in the other order; the first has a dead slot and a particle at rest in a unit field -/
example : ∃ ps : Nat → List Ptl, [1, 0].Perm (List.range 2) ∧ ps 0 ≠ [] ∧ (updateChi 1 1 [1, 0] ps 0).map Ptl.chi = [none, some 1] := by
  refine ⟨fun _ => [⟨⟨0, 0, 0⟩, ⟨0, 0, 0⟩, ⟨0, 0, 0⟩, 1, true, none⟩, ⟨⟨1, 0, 0⟩, ⟨0, 0, 0⟩, ⟨0, 0, 0⟩, 1, false, none⟩], by decide, by simp, ?_⟩
  rw [chi_of_all 1 1 2 _ (by decide)]
  simp [chi, radicand]

/-- A concrete case: gamma 5/3, momentum 4/3 along x, a frame with b = 3/5. -/
example : (5 / 3 : ℝ) ^ 2 = 1 ^ 2 + V3.sq ⟨4 / 3, 0, 0⟩ ∧ (5 / 4 : ℝ) ^ 2 * (1 - (3 / 5) ^ 2) = 1
    ∧ (3 / 5 : ℝ) ^ 2 + (4 / 5) ^ 2 = 1
    ∧ boostGamma (5 / 4) (3 / 5) (5 / 3) ⟨4 / 3, 0, 0⟩ ≠ 0 := by
  norm_num [V3.sq, boostGamma]

/-- With gamma stored in the place of its inverse, as particle loading leaves it
(`Verif.Load.load_gamma_fails`), chi is not a number for an ordinary momentum along the field. -/
theorem chi_loaded_fails : ∃ (E B u : V3) (gamma : ℝ), 0 < gamma ∧ gamma ^ 2 = 1 + u.sq ∧
    ∀ factor c, chi factor c E B u gamma = none := by
  refine ⟨⟨1, 0, 0⟩, ⟨0, 0, 0⟩, ⟨4 / 3, 0, 0⟩, 5 / 3, by norm_num, by norm_num [V3.sq], ?_⟩
  intro factor c
  have h : radicand c ⟨1, 0, 0⟩ ⟨0, 0, 0⟩ ⟨4 / 3, 0, 0⟩ (1 / (5 / 3)) < 0 := by
    norm_num [radicand]
  have h0 : (5 / 3 : ℝ) ≠ 0 := by norm_num
  simp only [chi, if_neg h0, if_pos h]

end Verif.Chi
