import Verif.Proofs.Sort
/-!
# C25: sorting only permutes, and the published bounds are right

Vocabulary: an array is a function on slot numbers; `P.attr a k` is attribute `a` of slot `k` (attributes 0, 1, 2 are the
coordinates), `P.dead k` the dead flag, `P.n` the number of slots.
-/
namespace Verif.SortProps
open Verif.Sort

/-- `x` lies in column `i` of a grid of spacing `dx` that starts at `x0` -/
def InColumn (x0 dx : ℚ) (i : Nat) (x : ℚ) : Prop := x0 + i * dx ≤ x ∧ x < x0 + (i + 1) * dx

/-- row-major number of cell `(ix, iy)`; with `reverse` the columns are numbered from the right -/
def bucketNo2 (reverse : Bool) (nx ny ix iy : Nat) : Nat := (if reverse then nx - 1 - ix else ix) * ny + iy

/-- row-major number of cell `(ix, iy, iz)`; with `reverse` the columns are numbered from the right -/
def bucketNo3 (reverse : Bool) (nx ny nz ix iy iz : Nat) : Nat :=
  ((if reverse then nx - 1 - ix else ix) * ny + iy) * nz + iz

/-- the new arrays `Q` are a rearrangement `σ` of the old arrays `P`: slot `k` goes to slot `σ k` with all of its
attributes and its dead flag -/
def Rearranged {α : Type*} (nattrs : Nat) (P Q : Patch α) (σ : Equiv.Perm (Fin P.n)) : Prop :=
  Q.n = P.n ∧ ∀ k : Fin P.n, (∀ a, a < nattrs → Q.attr a (σ k) = P.attr a k) ∧ Q.dead (σ k) = P.dead k

/-- the bounds cut the slots `0 … n-1` into `nbin` consecutive pieces -/
def BoundsPartition (bmin bmax : Nat → Nat) (nbin n : Nat) : Prop :=
  bmin 0 = 0 ∧ bmax (nbin - 1) = n ∧ (∀ b, b + 1 < nbin → bmax b = bmin (b + 1)) ∧ ∀ b, b < nbin → bmin b ≤ bmax b

/-- **C25 (permutation)**: whatever the positions, the dead flags and the old content of the scratch arrays, sorting moves
whole slots, loses none and duplicates none; the bounds cut the slots into consecutive pieces. -/
theorem sort2_permutes {α : Type*} (toQ : α → ℚ) (reverse : Bool) (nx ny : Nat) (hx : 0 < nx) (hy : 0 < ny)
    (dx dy x0 y0 : ℚ) (nattrs : Nat) (P : Patch α) (S : Scratch α) :
    let R := sort2 toQ reverse nx ny dx dy x0 y0 nattrs P S
    (∃ σ, Rearranged nattrs P R.patch σ) ∧ BoundsPartition R.bmin R.bmax (nx * ny) P.n := by
  intro R
  have h := sortPatch_spec (fun ip => cell2 reverse nx ny dx dy x0 y0 (toQ (P.attr 0 ip)) (toQ (P.attr 1 ip))) (nx * ny)
    nattrs P S (Nat.mul_pos hx hy) (fun i => cell2_lt hx hy _ _ _ _ _ _)
  rw [← bins2_eq] at h
  obtain ⟨h1, h2, σ, h3⟩ := h
  exact ⟨⟨σ, h1, fun k => ⟨(h3 k).1, (h3 k).2.1⟩⟩, h2⟩

/-- **C25 (permutation)**, three dimensions -/
theorem sort3_permutes {α : Type*} (toQ : α → ℚ) (reverse : Bool) (nx ny nz : Nat) (hx : 0 < nx) (hy : 0 < ny) (hz : 0 < nz)
    (dx dy dz x0 y0 z0 : ℚ) (nattrs : Nat) (P : Patch α) (S : Scratch α) :
    let R := sort3 toQ reverse nx ny nz dx dy dz x0 y0 z0 nattrs P S
    (∃ σ, Rearranged nattrs P R.patch σ) ∧ BoundsPartition R.bmin R.bmax (nx * ny * nz) P.n := by
  intro R
  have h := sortPatch_spec (fun ip => cell3 reverse nx ny nz dx dy dz x0 y0 z0 (toQ (P.attr 0 ip)) (toQ (P.attr 1 ip))
    (toQ (P.attr 2 ip))) (nx * ny * nz) nattrs P S (Nat.mul_pos (Nat.mul_pos hx hy) hz)
    (fun i => cell3_lt hx hy hz _ _ _ _ _ _ _ _ _)
  rw [← bins3_eq] at h
  obtain ⟨h1, h2, σ, h3⟩ := h
  exact ⟨⟨σ, h1, fun k => ⟨(h3 k).1, (h3 k).2.1⟩⟩, h2⟩

theorem cell2_no {reverse : Bool} {nx ny ix iy : Nat} {dx dy x0 y0 x y : ℚ} (hdx : 0 < dx) (hdy : 0 < dy)
    (hx : ix < nx) (hy : iy < ny) (hcx : InColumn x0 dx ix x) (hcy : InColumn y0 dy iy y) :
    cell2 reverse nx ny dx dy x0 y0 x y = bucketNo2 reverse nx ny ix iy := by
  unfold cell2 bucketNo2
  dsimp only
  rw [floor_cell hdx ix hcx.1 hcx.2, floor_cell hdy iy hcy.1 hcy.2]
  cases reverse
  · rw [if_neg Bool.false_ne_true, if_neg Bool.false_ne_true, if_pos (by omega)]
    rw [← Int.natCast_mul, ← Int.natCast_add, Int.toNat_natCast, Nat.add_comm]
  · rw [if_pos rfl, if_pos rfl, clamp_in hx, clamp_in hy]
    rw [show ((nx : Int) - 1 - ix) = ((nx - 1 - ix : Nat) : Int) by omega]
    rw [← Int.natCast_mul, ← Int.natCast_add, Int.toNat_natCast, Nat.add_comm]

theorem cell3_no {reverse : Bool} {nx ny nz ix iy iz : Nat} {dx dy dz x0 y0 z0 x y z : ℚ} (hdx : 0 < dx) (hdy : 0 < dy)
    (hdz : 0 < dz) (hx : ix < nx) (hy : iy < ny) (hz : iz < nz) (hcx : InColumn x0 dx ix x) (hcy : InColumn y0 dy iy y)
    (hcz : InColumn z0 dz iz z) :
    cell3 reverse nx ny nz dx dy dz x0 y0 z0 x y z = bucketNo3 reverse nx ny nz ix iy iz := by
  unfold cell3 bucketNo3
  dsimp only
  rw [floor_cell hdx ix hcx.1 hcx.2, floor_cell hdy iy hcy.1 hcy.2, floor_cell hdz iz hcz.1 hcz.2]
  cases reverse
  · rw [if_neg Bool.false_ne_true, if_neg Bool.false_ne_true, if_pos (by omega)]
    rw [idx3_eq, ← Int.natCast_mul, ← Int.natCast_add, ← Int.natCast_mul, ← Int.natCast_add, Int.toNat_natCast]
    ring
  · rw [if_pos rfl, if_pos rfl, clamp_in hx, clamp_in hy, clamp_in hz]
    rw [show ((nx : Int) - 1 - ix) = ((nx - 1 - ix : Nat) : Int) by omega]
    rw [idx3_eq, ← Int.natCast_mul, ← Int.natCast_add, ← Int.natCast_mul, ← Int.natCast_add, Int.toNat_natCast]
    ring

/-- **C25 (bounds)**: after the sort, a living particle that lies in cell `(ix, iy)` of the bucket grid is between the
bounds of that cell's bucket and of no other bucket. -/
theorem sort2_bounds {α : Type*} (toQ : α → ℚ) (reverse : Bool) (nx ny : Nat) (dx dy x0 y0 : ℚ) (hdx : 0 < dx) (hdy : 0 < dy)
    (nattrs : Nat) (hn : 2 ≤ nattrs) (P : Patch α) (S : Scratch α) :
    let R := sort2 toQ reverse nx ny dx dy x0 y0 nattrs P S
    ∀ i, i < R.patch.n → R.patch.dead i = false → ∀ ix iy, ix < nx → iy < ny →
      InColumn x0 dx ix (toQ (R.patch.attr 0 i)) → InColumn y0 dy iy (toQ (R.patch.attr 1 i)) →
      ∀ b, b < nx * ny → ((R.bmin b ≤ i ∧ i < R.bmax b) ↔ b = bucketNo2 reverse nx ny ix iy) := by
  intro R i hi hdead ix iy hix hiy hcx hcy b hb
  have hx : 0 < nx := by omega
  have hy : 0 < ny := by omega
  have h := sortPatch_spec (fun ip => cell2 reverse nx ny dx dy x0 y0 (toQ (P.attr 0 ip)) (toQ (P.attr 1 ip))) (nx * ny)
    nattrs P S (Nat.mul_pos hx hy) (fun i => cell2_lt hx hy _ _ _ _ _ _)
  rw [← bins2_eq] at h
  obtain ⟨h1, h2, σ, h3⟩ := h
  have hin : i < P.n := h1 ▸ hi
  obtain ⟨k, hk⟩ := σ.surjective ⟨i, hin⟩
  obtain ⟨a1, a2, a3⟩ := h3 k
  have hki : ((σ k : Fin P.n) : Nat) = i := congrArg Fin.val hk
  rw [hki] at a1 a2 a3
  have e0 : R.patch.attr 0 i = P.attr 0 k := a1 0 (by omega)
  have e1 : R.patch.attr 1 i = P.attr 1 k := a1 1 (by omega)
  have ed : P.dead k = false := a2 ▸ hdead
  have hiff := a3 b hb
  rw [slotBucket_live ed] at hiff
  rw [e0] at hcx
  rw [e1] at hcy
  rw [cell2_no hdx hdy hix hiy hcx hcy] at hiff
  exact hiff

/-- **C25 (bounds)**, three dimensions -/
theorem sort3_bounds {α : Type*} (toQ : α → ℚ) (reverse : Bool) (nx ny nz : Nat) (dx dy dz x0 y0 z0 : ℚ) (hdx : 0 < dx)
    (hdy : 0 < dy) (hdz : 0 < dz) (nattrs : Nat) (hn : 3 ≤ nattrs) (P : Patch α) (S : Scratch α) :
    let R := sort3 toQ reverse nx ny nz dx dy dz x0 y0 z0 nattrs P S
    ∀ i, i < R.patch.n → R.patch.dead i = false → ∀ ix iy iz, ix < nx → iy < ny → iz < nz →
      InColumn x0 dx ix (toQ (R.patch.attr 0 i)) → InColumn y0 dy iy (toQ (R.patch.attr 1 i)) →
      InColumn z0 dz iz (toQ (R.patch.attr 2 i)) →
      ∀ b, b < nx * ny * nz → ((R.bmin b ≤ i ∧ i < R.bmax b) ↔ b = bucketNo3 reverse nx ny nz ix iy iz) := by
  intro R i hi hdead ix iy iz hix hiy hiz hcx hcy hcz b hb
  have hx : 0 < nx := by omega
  have hy : 0 < ny := by omega
  have hz : 0 < nz := by omega
  have h := sortPatch_spec (fun ip => cell3 reverse nx ny nz dx dy dz x0 y0 z0 (toQ (P.attr 0 ip)) (toQ (P.attr 1 ip))
    (toQ (P.attr 2 ip))) (nx * ny * nz) nattrs P S (Nat.mul_pos (Nat.mul_pos hx hy) hz)
    (fun i => cell3_lt hx hy hz _ _ _ _ _ _ _ _ _)
  rw [← bins3_eq] at h
  obtain ⟨h1, h2, σ, h3⟩ := h
  have hin : i < P.n := h1 ▸ hi
  obtain ⟨k, hk⟩ := σ.surjective ⟨i, hin⟩
  obtain ⟨a1, a2, a3⟩ := h3 k
  have hki : ((σ k : Fin P.n) : Nat) = i := congrArg Fin.val hk
  rw [hki] at a1 a2 a3
  have e0 : R.patch.attr 0 i = P.attr 0 k := a1 0 (by omega)
  have e1 : R.patch.attr 1 i = P.attr 1 k := a1 1 (by omega)
  have e2 : R.patch.attr 2 i = P.attr 2 k := a1 2 (by omega)
  have ed : P.dead k = false := a2 ▸ hdead
  have hiff := a3 b hb
  rw [slotBucket_live ed] at hiff
  rw [e0] at hcx
  rw [e1] at hcy
  rw [e2] at hcz
  rw [cell3_no hdx hdy hdz hix hiy hiz hcx hcy hcz] at hiff
  exact hiff

/-- **C25 (strays)**: without `reverse`, a living particle outside the bucket grid is between the bounds of the last bucket. -/
theorem sort2_strays_last {α : Type*} (toQ : α → ℚ) (nx ny : Nat) (hx : 0 < nx) (hy : 0 < ny) (dx dy x0 y0 : ℚ) (hdx : 0 < dx)
    (hdy : 0 < dy) (nattrs : Nat) (hn : 2 ≤ nattrs) (P : Patch α) (S : Scratch α) :
    let R := sort2 toQ false nx ny dx dy x0 y0 nattrs P S
    ∀ i, i < R.patch.n → R.patch.dead i = false →
      (toQ (R.patch.attr 0 i) < x0 ∨ x0 + nx * dx ≤ toQ (R.patch.attr 0 i)
        ∨ toQ (R.patch.attr 1 i) < y0 ∨ y0 + ny * dy ≤ toQ (R.patch.attr 1 i)) →
      R.bmin (nx * ny - 1) ≤ i ∧ i < R.bmax (nx * ny - 1) := by
  intro R i hi hdead hout
  have hpos := Nat.mul_pos hx hy
  have h := sortPatch_spec (fun ip => cell2 false nx ny dx dy x0 y0 (toQ (P.attr 0 ip)) (toQ (P.attr 1 ip))) (nx * ny)
    nattrs P S hpos (fun i => cell2_lt hx hy _ _ _ _ _ _)
  rw [← bins2_eq] at h
  obtain ⟨h1, h2, σ, h3⟩ := h
  have hin : i < P.n := h1 ▸ hi
  obtain ⟨k, hk⟩ := σ.surjective ⟨i, hin⟩
  obtain ⟨a1, a2, a3⟩ := h3 k
  have hki : ((σ k : Fin P.n) : Nat) = i := congrArg Fin.val hk
  rw [hki] at a1 a2 a3
  have e0 : R.patch.attr 0 i = P.attr 0 k := a1 0 (by omega)
  have e1 : R.patch.attr 1 i = P.attr 1 k := a1 1 (by omega)
  have ed : P.dead k = false := a2 ▸ hdead
  have hiff := a3 (nx * ny - 1) (by omega)
  rw [slotBucket_live ed] at hiff
  refine hiff.mpr ?_
  rw [e0, e1] at hout
  unfold cell2
  dsimp only
  rw [if_neg Bool.false_ne_true]
  refine ((if_neg ?_).trans rfl).symm
  rintro ⟨c1, c2, c3, c4⟩
  rw [Int.floor_lt] at c2 c4
  rw [Int.le_floor] at c1 c3
  push_cast at c1 c2 c3 c4
  rw [le_div_iff₀ hdx] at c1
  rw [le_div_iff₀ hdy] at c3
  rw [div_lt_iff₀ hdx] at c2
  rw [div_lt_iff₀ hdy] at c4
  rcases hout with h | h | h | h <;> linarith

/-! ## a concrete case -/

/-- four slots, buckets of width 1 in x: positions 2.5, 0.5, dead, 1.5; the attribute arrays are `x`, `y`, `id` -/
def exP : Patch ℚ :=
  ⟨4, fun a i => if a = 0 then ([5/2, 1/2, 0, 3/2] : List ℚ).getD i 0 else if a = 1 then 1/2 else 100 + i,
    fun i => i == 2⟩

def exS : Scratch ℚ := ⟨fun _ => 7, fun _ => 7, fun _ => 7, fun _ => 7, fun _ => 7, fun _ => 7, fun _ => 7, fun _ => true⟩

/-- slots end up in the order 2 (dead, filed with slot 1), 1, 3, 0 and the bounds are 0,2,3,4 -/
example : let R := sort2 id false 3 1 1 1 0 0 3 exP exS
    (List.range 4).map (R.patch.attr 2) = [102, 101, 103, 100]
    ∧ (List.range 4).map R.patch.dead = [true, false, false, false]
    ∧ (List.range 3).map R.bmin = [0, 2, 3] ∧ (List.range 3).map R.bmax = [2, 3, 4] := by decide +kernel

/-- the hypotheses of `sort2_bounds` hold for slot 2 of that result, which lies in column 1 -/
example : let R := sort2 id false 3 1 1 1 0 0 3 exP exS
    2 < R.patch.n ∧ R.patch.dead 2 = false ∧ InColumn 0 1 1 (R.patch.attr 0 2) ∧ InColumn 0 1 0 (R.patch.attr 1 2) := by
  unfold InColumn; decide +kernel

/-- a stray particle: with two columns only, the particle at 2.5 is outside -/
example : let R := sort2 id false 2 1 1 1 0 0 3 exP exS
    R.patch.dead 2 = false ∧ (0 : ℚ) + (2 : ℕ) * 1 ≤ R.patch.attr 0 2 ∧ R.bmin 1 ≤ 2 ∧ 2 < R.bmax 1 := by decide +kernel

end Verif.SortProps
