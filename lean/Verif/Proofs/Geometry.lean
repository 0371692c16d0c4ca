import Verif.Model.Geometry
import Verif.Proofs.ExchangeRoute
import Verif.Proofs.Neighbors
import Mathlib.Algebra.Order.Field.Rat
import Mathlib.Tactic.Linarith
import Mathlib.Tactic.FieldSimp
import Mathlib.Tactic.Ring
import Mathlib.Tactic.Positivity
/-!
# Lemmas about the concrete exchange geometries
-/
namespace Verif.Geometry
open Verif.Neighbors Verif.Exchange
open Verif.Particles (F64)

theorem cls2_none {R : Type} (bx by' : Bnd) (ip : Nat) (p : A2 R) :
    cls2 bx by' ip p = none ↔ inside2 bx by' ip p = true := by
  unfold cls2 inside2
  cases F64.lt p.x (bx.lo ip) <;> cases F64.gt p.x (bx.hi ip) <;>
  cases F64.lt p.y (by'.lo ip) <;> cases F64.gt p.y (by'.hi ip) <;> simp

theorem cls3_none {R : Type} (bx by' bz : Bnd) (ip : Nat) (p : A3 R) :
    cls3 bx by' bz ip p = none ↔ inside3 bx by' bz ip p = true := by
  unfold cls3 inside3
  cases F64.lt p.x (bx.lo ip) <;> cases F64.gt p.x (bx.hi ip) <;>
  cases F64.lt p.y (by'.lo ip) <;> cases F64.gt p.y (by'.hi ip) <;>
  cases F64.lt p.z (bz.lo ip) <;> cases F64.gt p.z (bz.hi ip) <;> simp

/-- the neighbour table is opposite-symmetric and names existing patches only -/
def Sym2 (npatches : Nat) (nbr : Nat → B2 → Option Nat) : Prop :=
  ∀ i b t, nbr i b = some t → i < npatches ∧ t < npatches ∧ nbr t b.opp = some i

def Sym3 (npatches : Nat) (nbr : Nat → B3 → Option Nat) : Prop :=
  ∀ i b t, nbr i b = some t → i < npatches ∧ t < npatches ∧ nbr t b.opp = some i

theorem B2.nodup_all : B2.all.Nodup := by decide
theorem B2.mem_all (b : B2) : b ∈ B2.all := by cases b <;> decide
theorem B3.nodup_all : B3.all.Nodup := by decide
theorem B3.mem_all (b : B3) : b ∈ B3.all := by cases b <;> decide

theorem wf2 {R : Type} {n : Nat} {nbr : Nat → B2 → Option Nat} (h : Sym2 n nbr) (bx by' : Bnd)
    (blank : A2 R) : WF (geo2 n nbr bx by' blank) where
  nodup := B2.nodup_all
  complete := B2.mem_all
  opp_opp := by intro d; cases d <;> rfl
  agree := by intro ip a; rfl
  sym := h

theorem wf3 {R : Type} {n : Nat} {nbr : Nat → B3 → Option Nat} (h : Sym3 n nbr) (bx by' bz : Bnd)
    (blank : A3 R) : WF (geo3 n nbr bx by' bz blank) where
  nodup := B3.nodup_all
  complete := B3.mem_all
  opp_opp := by intro d; cases d <;> rfl
  agree := by intro ip a; rfl
  sym := h

theorem sym2_of_grid {npx npy : Nat} {bx by' : AxisBC} (hx : bx.Paired) (hy : by'.Paired)
    {ps loc : List P2} (hg : Grid2 npx npy ps) (hsub : ∀ p ∈ loc, p ∈ ps) (hnd : loc.Nodup) :
    Sym2 loc.length (neighborIpatch2 npx npy bx by' ps loc) := by
  intro i b t h
  obtain ⟨p, q, hp, hq, _⟩ := (neighborIpatch2_some hx hy hg hsub hnd i t b).mp h
  exact ⟨(List.getElem?_eq_some_iff.mp hp).1, (List.getElem?_eq_some_iff.mp hq).1,
    neighborIpatch2_sym hx hy hg hsub hnd h⟩

theorem sym3_of_grid {npx npy npz : Nat} {bx by' bz : AxisBC} (hx : bx.Paired) (hy : by'.Paired)
    (hz : bz.Paired)
    {ps loc : List P3} (hg : Grid3 npx npy npz ps) (hsub : ∀ p ∈ loc, p ∈ ps) (hnd : loc.Nodup) :
    Sym3 loc.length (neighborIpatch3 npx npy npz bx by' bz ps loc) := by
  intro i b t h
  obtain ⟨p, q, hp, hq, _⟩ := (neighborIpatch3_some hx hy hz hg hsub hnd i t b).mp h
  exact ⟨(List.getElem?_eq_some_iff.mp hp).1, (List.getElem?_eq_some_iff.mp hq).1,
    neighborIpatch3_sym hx hy hz hg hsub hnd h⟩

/-! ## one axis -/

variable (a : Axis)

theorem Axis.x0_eq (hn : 0 < a.n) (i : Nat) : a.x0 i = (i : Rat) * (a.c : Rat) * a.h := by
  unfold Axis.x0 Axis.L
  have : (a.n : Rat) ≠ 0 := by exact_mod_cast hn.ne'
  push_cast
  field_simp

theorem Axis.gmax_eq : a.gmax = (a.n : Rat) * (a.c : Rat) * a.h - a.h / 2 := by
  unfold Axis.gmax Axis.L; push_cast; ring

theorem Axis.lo_periodic (hn : 0 < a.n) (hp : a.bc.lo = .periodic) (i : Nat) :
    a.lo i = (i : Rat) * (a.c : Rat) * a.h - a.h / 2 := by
  unfold Axis.lo Axis.pmin
  rw [hp, a.x0_eq hn]
  simp

theorem Axis.hi_periodic (hn : 0 < a.n) (hp : a.bc.hi = .periodic) (i : Nat) :
    a.hi i = ((i : Rat) + 1) * (a.c : Rat) * a.h - a.h / 2 := by
  unfold Axis.hi Axis.pmax
  rw [hp, a.x0_eq hn]
  simp
  ring

theorem wrap_nan (b : Bnd) (ip : Nat) : b.wrap ip .nan = .nan := by
  simp [Bnd.wrap, handlePeriodic, F64.gt, F64.lt]

theorem wrap_val (b : Bnd) (ip : Nat) (v : Rat) (hg : b.gmin ≤ b.gmax) :
    b.wrap ip (.val v) = .val (
      if b.gmax < v ∧ fabs (b.lo ip - b.gmin) < b.cell then v - (b.gmax - b.gmin)
      else if v < b.gmin ∧ fabs (b.hi ip - b.gmax) < b.cell then v + (b.gmax - b.gmin)
      else v) := by
  unfold Bnd.wrap handlePeriodic
  simp only [F64.gt, F64.lt, decide_eq_true_eq]
  by_cases h1 : b.gmax < v ∧ fabs (b.lo ip - b.gmin) < b.cell
  · have h2 : ¬ (v < b.gmin ∧ fabs (b.hi ip - b.gmax) < b.cell) := by
      rintro ⟨h, _⟩; linarith [h1.1]
    rw [if_pos h1, if_neg h2, if_pos h1]
    simp [F64.add, sub_eq_add_neg]
  · rw [if_neg h1, if_neg h1]
    split <;> simp [F64.add]

theorem fabs_eq_zero_lt {c : Rat} (h : 0 < c) {x : Rat} (hx : x = 0) : fabs x < c := by
  subst hx; unfold fabs; simpa using h

/-- patch `m` does not touch the lower edge: no downward shift happens in it -/
theorem fabs_ge {c x : Rat} (h : c ≤ x) (hc : 0 < c) : ¬ fabs x < c := by
  unfold fabs; split <;> linarith

theorem fabs_le_neg {c x : Rat} (h : x ≤ -c) (hc : 0 < c) : ¬ fabs x < c := by
  unfold fabs; split <;> linarith

theorem cast_mul_ge {m c : Nat} (hm : 0 < m) (hc : 0 < c) {h : Rat} (hh : 0 < h) :
    h ≤ (m : Rat) * (c : Rat) * h := by
  have : (1 : Rat) ≤ (m : Rat) * (c : Rat) := by exact_mod_cast Nat.mul_pos hm hc
  nlinarith

/-- A particle at most one patch length outside patch `i` of a periodic axis, received by the patch
`m` adjacent in the direction it left: it is shifted by a whole domain length exactly when it is
outside the domain, and lands within the bounds of `m`. -/
theorem axis_periodic (hn : 0 < a.n) (hc : 0 < a.c) (hh : 0 < a.h)
    (hlo : a.bc.lo = .periodic) (hhi : a.bc.hi = .periodic) {i m : Nat} (hi : i < a.n)
    (v : Rat) (h1 : a.lo i - (a.c : Rat) * a.h ≤ v) (h2 : v ≤ a.hi i + (a.c : Rat) * a.h)
    (hm : Adj a.n a.bc i (if v < a.lo i then -1 else if a.hi i < v then 1 else 0) m)
    (coord : Nat → Nat) (q : Nat) (hq : coord q = m) :
    ∃ w : Rat, (a.bnd coord).wrap q (.val v) = .val w ∧ a.lo m ≤ w ∧ w ≤ a.hi m ∧
      w = (if v < a.gmin then v + a.L else if a.gmax < v then v - a.L else v) := by
  have hgm : a.gmin = -a.h / 2 := rfl
  have hgx := a.gmax_eq
  have hL : a.L = (a.n : Rat) * (a.c : Rat) * a.h := by unfold Axis.L; push_cast; ring
  have hch : 0 < (a.c : Rat) * a.h := by
    have : (0 : Rat) < a.c := by exact_mod_cast hc
    positivity
  have hnch : (a.c : Rat) * a.h ≤ (a.n : Rat) * (a.c : Rat) * a.h := by
    have : (1 : Rat) ≤ a.n := by exact_mod_cast hn
    nlinarith
  have hgl : a.gmin ≤ a.gmax := by rw [hgm, hgx]; linarith
  have hinN : ((i : Rat) + 1) * (a.c : Rat) * a.h ≤ (a.n : Rat) * (a.c : Rat) * a.h := by
    have : (i : Rat) + 1 ≤ a.n := by exact_mod_cast hi
    have := mul_le_mul_of_nonneg_right this hch.le
    nlinarith
  have hi0 : 0 ≤ (i : Rat) * (a.c : Rat) * a.h := by positivity
  rw [a.lo_periodic hn hlo] at h1 hm
  rw [a.hi_periodic hn hhi] at h2 hm
  rw [wrap_val _ _ _ hgl]
  simp only [Axis.bnd, hq]
  refine ⟨_, rfl, ?_⟩
  rw [a.lo_periodic hn hlo, a.hi_periodic hn hhi]
  obtain ⟨hmn, hadj⟩ := hm
  rw [if_pos hlo] at hadj
  by_cases hlt : v < (i : Rat) * (a.c : Rat) * a.h - a.h / 2
  · rw [if_pos hlt] at hadj
    have hng : ¬ a.gmax < v := by rw [hgx]; intro h; linarith
    have hA : ¬ (a.gmax < v ∧ fabs ((m : Rat) * (a.c : Rat) * a.h - a.h / 2 - a.gmin) < a.h) :=
      fun h => hng h.1
    rw [if_neg hA]
    by_cases hi' : i = 0
    · subst hi'
      have hm' : m = a.n - 1 := by
        have e : ((a.n - 1 : Nat) : Int) ≡ ((0 : Nat) : Int) + -1 [ZMOD a.n] := by
          have : ((a.n - 1 : Nat) : Int) = (a.n : Int) - 1 := by omega
          rw [this]
          unfold Int.ModEq
          have e2 : (a.n : Int) - 1 = (((0 : Nat) : Int) + -1) + a.n := by push_cast; ring
          rw [e2, Int.add_emod_right]
        have := modEq_small (by omega) (by omega) (by omega) (by omega) (hadj.trans e.symm)
        omega
      have hmr : (m : Rat) = (a.n : Rat) - 1 := by
        rw [hm', Nat.cast_sub (by omega)]; simp
      have hvg : v < a.gmin := by rw [hgm]; push_cast at hlt; linarith
      have hB : fabs (((m : Rat) + 1) * (a.c : Rat) * a.h - a.h / 2 - a.gmax) < a.h := by
        apply fabs_eq_zero_lt hh; rw [hmr, hgx]; ring
      rw [if_pos ⟨hvg, hB⟩, if_pos hvg, hmr, hL, hgx, hgm]
      push_cast at h1 hlt
      refine ⟨by linarith, by linarith, by ring⟩
    · have hm' : (m : Int) = i - 1 := by
        refine modEq_small (n := a.n) (by omega) (by omega) (by omega) (by omega) ?_
        have e : (i : Int) - 1 = (i : Int) + -1 := by ring
        rw [e]; exact hadj
      have hmr : (m : Rat) = (i : Rat) - 1 := by
        have : ((m : Int) : Rat) = ((i : Int) : Rat) - 1 := by rw [hm']; push_cast; ring
        simpa using this
      have hge : a.gmin ≤ v := by
        rw [hgm]
        have : (a.c : Rat) * a.h ≤ (i : Rat) * (a.c : Rat) * a.h := by
          have : (1 : Rat) ≤ i := by exact_mod_cast Nat.pos_of_ne_zero hi'
          nlinarith
        linarith
      have hB : ¬ (v < a.gmin ∧ fabs (((m : Rat) + 1) * (a.c : Rat) * a.h - a.h / 2 - a.gmax) < a.h) :=
        fun h => absurd h.1 (not_lt.mpr hge)
      rw [if_neg hB, if_neg (not_lt.mpr hge), if_neg hng, hmr]
      refine ⟨by linarith, by linarith, rfl⟩
  · rw [if_neg hlt] at hadj
    have hge : a.gmin ≤ v := by rw [hgm]; linarith
    by_cases hgt : ((i : Rat) + 1) * (a.c : Rat) * a.h - a.h / 2 < v
    · rw [if_pos hgt] at hadj
      rw [if_neg (not_lt.mpr hge)]
      by_cases hi' : i + 1 = a.n
      · have hm' : m = 0 := by
          have e : ((0 : Nat) : Int) ≡ ((i : Nat) : Int) + 1 [ZMOD a.n] := by
            have : ((i : Nat) : Int) + 1 = (a.n : Int) := by omega
            rw [this]
            unfold Int.ModEq; simp
          have := modEq_small (by omega) (by omega) (by omega) (by omega) (hadj.trans e.symm)
          omega
        subst hm'
        have hnr : (i : Rat) + 1 = (a.n : Rat) := by exact_mod_cast hi'
        have hvg : a.gmax < v := by rw [hgx]; rw [hnr] at hgt; linarith
        have hB : fabs (((0 : Nat) : Rat) * (a.c : Rat) * a.h - a.h / 2 - a.gmin) < a.h := by
          apply fabs_eq_zero_lt hh; rw [hgm]; push_cast; ring
        rw [if_pos ⟨hvg, hB⟩, if_pos hvg, hL, hgx, hgm]
        rw [hnr] at h2 hgt
        push_cast
        refine ⟨by linarith, by linarith, by ring⟩
      · have hm' : (m : Int) = i + 1 :=
          modEq_small (n := a.n) (by omega) (by omega) (by omega) (by omega) hadj
        have hmr : (m : Rat) = (i : Rat) + 1 := by
          have : ((m : Int) : Rat) = ((i : Int) : Rat) + 1 := by rw [hm']; push_cast; ring
          simpa using this
        have hng : ¬ a.gmax < v := by
          rw [hgx]
          have h3 : (i : Rat) + 1 + 1 ≤ a.n := by exact_mod_cast (by omega : i + 1 + 1 ≤ a.n)
          have := mul_le_mul_of_nonneg_right h3 hch.le
          intro h
          nlinarith
        rw [if_neg (fun h => hng h.1), if_neg (fun h => absurd h.1 (not_lt.mpr hge)), if_neg hng, hmr]
        refine ⟨by linarith, by linarith, rfl⟩
    · rw [if_neg hgt] at hadj
      have hm' : m = i := by
        have : (m : Int) = i := modEq_small (n := a.n) (by omega) (by omega) (by omega) (by omega)
          (by simpa using hadj)
        omega
      subst hm'
      have hng : ¬ a.gmax < v := by rw [hgx]; intro h; linarith
      rw [if_neg (fun h => hng h.1), if_neg (fun h => absurd h.1 (not_lt.mpr hge)),
        if_neg (not_lt.mpr hge), if_neg hng]
      exact ⟨by linarith, by linarith, rfl⟩

/-- on a non-periodic axis nothing is ever shifted -/
theorem axis_pml_no_shift (hn : 0 < a.n) (hc : 0 < a.c) (hh : 0 < a.h) (ht : 0 < a.thick)
    (hlo : a.bc.lo = .pml) (hhi : a.bc.hi = .pml) (coord : Nat → Nat) (q : Nat) (hq : coord q < a.n)
    (v : F64) : (a.bnd coord).wrap q v = v := by
  cases v with
  | nan => exact wrap_nan _ _
  | val v =>
    have hgx := a.gmax_eq
    have hgm : a.gmin = -a.h / 2 := rfl
    have hch : 0 < (a.c : Rat) * a.h := by
      have : (0 : Rat) < a.c := by exact_mod_cast hc
      positivity
    have hnch : (a.c : Rat) * a.h ≤ (a.n : Rat) * (a.c : Rat) * a.h := by
      have : (1 : Rat) ≤ a.n := by exact_mod_cast hn
      nlinarith
    have hth : a.h ≤ (a.thick : Rat) * a.h := by
      have : (1 : Rat) ≤ a.thick := by exact_mod_cast ht
      nlinarith
    have hgl : a.gmin ≤ a.gmax := by rw [hgm, hgx]; linarith
    rw [wrap_val _ _ _ hgl]
    have h1 : ¬ fabs (a.lo (coord q) - a.gmin) < a.h := by
      apply fabs_ge _ hh
      unfold Axis.lo Axis.pmin
      rw [hlo, a.x0_eq hn, hgm]
      split
      · rename_i h
        rw [h.1]; push_cast; linarith
      · rename_i h
        have : 0 < coord q := by
          rcases Nat.eq_zero_or_pos (coord q) with h0 | h0
          · exact absurd ⟨h0, rfl⟩ h
          · exact h0
        have := cast_mul_ge this hc hh
        linarith
    have h2 : ¬ fabs (a.hi (coord q) - a.gmax) < a.h := by
      apply fabs_le_neg _ hh
      unfold Axis.hi Axis.pmax
      rw [hhi, a.x0_eq hn, hgx]
      split
      · rename_i h
        have : (coord q : Rat) = (a.n : Rat) - 1 := by
          rw [h.1, Nat.cast_sub (by omega)]; simp
        rw [this]; linarith
      · rename_i h
        have h3 : (coord q : Rat) + 1 + 1 ≤ a.n := by
          have : coord q + 1 + 1 ≤ a.n := by
            have : coord q ≠ a.n - 1 := fun e => h ⟨e, rfl⟩
            omega
          exact_mod_cast this
        have h4 := mul_le_mul_of_nonneg_right h3 hch.le
        have h5 : a.h ≤ (a.c : Rat) * a.h := by
          have : (1 : Rat) ≤ a.c := by exact_mod_cast hc
          nlinarith
        nlinarith
    simp only [Axis.bnd, h1, h2, and_false, if_false]

end Verif.Geometry
