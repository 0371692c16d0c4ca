import Verif.Model.WholePml
import Verif.Proofs.WholeRunParts
import Verif.Props.MpiExchange
import Verif.Props.Exchange3
/-!
# Where the particle exchange takes a particle on a domain with periodic and absorbing axes
-/
namespace Verif.WholePml
open Verif.Geometry Verif.Neighbors Verif.ExchangeProps Verif.MpiExchangeProps
open Verif.Particles (F64)

/-- what becomes of coordinate `v` of a particle of the patch at `i`: if it is kept it has an adjacent patch in the direction
it left, and is inside it after the shift by a multiple of `L`; otherwise there is no patch in that direction -/
structure Lands (a : Axis) (i : Nat) (v L : ℚ) (keep : Prop) : Prop where
  stay : keep → ∃ m w, Adj a.n a.bc i (side (a.lo i) (a.hi i) (.val v)) m ∧
    (∀ (coord : Nat → Nat) q, coord q = m → (a.bnd coord).wrap q (.val v) = .val w) ∧ a.lo m ≤ w ∧ w ≤ a.hi m ∧
    (side (a.lo i) (a.hi i) (.val v) = 0 → w = v) ∧ ∃ z : ℤ, w = v + z * L
  gone : ¬ keep → side (a.lo i) (a.hi i) (.val v) ≠ 0 ∧ ∀ m, ¬ Adj a.n a.bc i (side (a.lo i) (a.hi i) (.val v)) m

theorem lands_periodic {a : Axis} (ha : PeriodicAxis a) {i : Nat} (hi : i < a.n) {v : ℚ} (hv : Near a i v) {L : ℚ}
    (hL : ∃ z : ℤ, foldBack a v = v + z * L) {keep : Prop} (hk : keep) : Lands a i v L keep := by
  refine ⟨fun _ => ?_, fun h => absurd hk h⟩
  obtain ⟨m, hm⟩ := adj_exists ha i (side (a.lo i) (a.hi i) (.val v))
  have key : ∀ (coord : Nat → Nat) q, coord q = m → (a.bnd coord).wrap q (.val v) = .val (foldBack a v) ∧
      a.lo m ≤ foldBack a v ∧ foldBack a v ≤ a.hi m := by
    intro coord q hq
    obtain ⟨w, h1, h2, h3, h4⟩ := axis_periodic a ha.n_pos ha.c_pos ha.h_pos ha.lo ha.hi hi v hv.1 hv.2 hm coord q hq
    have e : w = foldBack a v := h4
    rw [e] at h1 h2 h3
    exact ⟨h1, h2, h3⟩
  exact ⟨m, foldBack a v, hm, fun coord q hq => (key coord q hq).1, (key (fun _ => m) 0 rfl).2.1, (key (fun _ => m) 0 rfl).2.2,
    fun h0 => foldBack_inside ha hi h0, hL⟩

section Open
variable {a : Axis} (hn : 0 < a.n) (hh : 0 < a.h) (ht : 0 < a.thick) (htc : a.thick < a.c) (hlo : a.bc.lo = .pml)
  (hhi : a.bc.hi = .pml)

include hn hlo in
theorem open_lo (i : Nat) : a.lo i = i * a.c * a.h + (if i = 0 then a.thick * a.h else 0) - a.h / 2 := by
  unfold Axis.lo Axis.pmin
  rw [a.x0_eq hn]
  by_cases h : i = 0
  · rw [if_pos ⟨h, hlo⟩, if_pos h]
  · rw [if_neg fun q => h q.1, if_neg h, add_zero]

include hn hhi in
theorem open_hi (i : Nat) : a.hi i = (i + 1) * a.c * a.h - (if i = a.n - 1 then a.thick * a.h else 0) - a.h / 2 := by
  unfold Axis.hi Axis.pmax
  rw [a.x0_eq hn]
  by_cases h : i = a.n - 1
  · rw [if_pos ⟨h, hhi⟩, if_pos h]; ring
  · rw [if_neg fun q => h q.1, if_neg h]; ring

include hn hh ht htc hlo hhi in
theorem lands_open {i : Nat} (hi : i < a.n) {v : ℚ} (h1 : i * a.c * a.h - a.h / 2 - a.h ≤ v)
    (h2 : v ≤ i * a.c * a.h + a.c * a.h - a.h / 2 + a.h) :
    Lands a i v 0 (a.thick * a.h - a.h / 2 ≤ v ∧ v ≤ (a.n * a.c - a.thick) * a.h - a.h / 2) := by
  have hc : 0 < a.c := by omega
  have hth : 0 < (a.thick : ℚ) * a.h := by have : (0 : ℚ) < a.thick := by exact_mod_cast ht
                                           positivity
  have htc' : (a.thick : ℚ) * a.h + a.h ≤ a.c * a.h := by
    have : (a.thick : ℚ) + 1 ≤ a.c := by exact_mod_cast htc
    nlinarith
  have hpml : ¬ a.bc.lo = .periodic := by rw [hlo]; intro h; cases h
  have adj : ∀ o m, Adj a.n a.bc i o m ↔ m < a.n ∧ (m : Int) = i + o := by
    intro o m
    unfold Adj
    rw [if_neg hpml]
  have ws : ∀ m, m < a.n → ∀ (coord : Nat → Nat) q, coord q = m → (a.bnd coord).wrap q (.val v) = .val v :=
    fun m hm coord q hq => axis_pml_no_shift a hn hc hh ht hlo hhi coord q (hq ▸ hm) _
  have hgap : ∀ x y : Nat, x ≤ y → (x : ℚ) * a.c * a.h ≤ y * a.c * a.h := by
    intro x y hxy
    have : (x : ℚ) ≤ y := by exact_mod_cast hxy
    have hc' : (0 : ℚ) < a.c := by exact_mod_cast hc
    have : (x : ℚ) * a.c ≤ y * a.c := mul_le_mul_of_nonneg_right this hc'.le
    exact mul_le_mul_of_nonneg_right this hh.le
  have z0 : (0 : ℚ) * a.c * a.h = 0 := by ring
  have hsub : ((a.n : ℚ) * a.c - a.thick) * a.h = a.n * a.c * a.h - a.thick * a.h := by ring
  have hl := open_lo (a := a) hn hlo
  have hu := open_hi (a := a) hn hhi
  rcases lt_or_ge v (a.lo i) with hvl | hvl
  · have hs : side (a.lo i) (a.hi i) (.val v) = -1 := by simp [side, hvl]
    by_cases h0 : i = 0
    · refine ⟨fun hk => ?_, fun _ => ?_⟩
      · rw [hl, if_pos h0, h0] at hvl
        push_cast at hvl
        linarith [hk.1]
      · rw [hs]
        refine ⟨by decide, fun m hm => ?_⟩
        rw [adj] at hm
        omega
    · obtain ⟨j, rfl⟩ := Nat.exists_eq_succ_of_ne_zero h0
      have hvl' := hvl
      rw [hl, if_neg h0] at hvl
      have e1 : ((j + 1 : Nat) : ℚ) * a.c * a.h = j * a.c * a.h + a.c * a.h := by push_cast; ring
      rw [Nat.succ_eq_add_one, e1] at hvl h1 
      have p1 : a.lo j ≤ v := by
        rw [hl]
        split <;> linarith
      have p2 : v ≤ a.hi j := by
        rw [hu, if_neg (by omega)]
        linarith
      have g0 := hgap 0 j (Nat.zero_le _)
      have g1 := hgap (j + 1 + 1) a.n (by omega)
      have e2 : ((j + 1 + 1 : Nat) : ℚ) * a.c * a.h = j * a.c * a.h + a.c * a.h + a.c * a.h := by push_cast; ring
      rw [e2] at g1
      push_cast at g0
      refine ⟨fun _ => ⟨j, v, ?_, ws j (by omega), p1, p2, fun _ => rfl, 0, by simp⟩, fun hk => absurd ⟨?_, ?_⟩ hk⟩
      · rw [hs, adj]; omega
      · linarith
      · rw [hsub]; linarith
  · rcases lt_or_ge (a.hi i) v with hvu | hvu
    · have hs : side (a.lo i) (a.hi i) (.val v) = 1 := by
        simp only [side]
        rw [if_neg (not_lt.mpr hvl), if_pos hvu]
      by_cases h0 : i = a.n - 1
      · refine ⟨fun hk => ?_, fun _ => ?_⟩
        · rw [hu, if_pos h0] at hvu
          have e : ((i : ℚ) + 1) = a.n := by
            have : i + 1 = a.n := by omega
            exact_mod_cast this
          rw [e] at hvu
          have := hk.2
          rw [hsub] at this
          linarith
        · rw [hs]
          refine ⟨by decide, fun m hm => ?_⟩
          rw [adj] at hm
          omega
      · rw [hu, if_neg h0] at hvu
        have e1 : ((i : ℚ) + 1) * a.c * a.h = i * a.c * a.h + a.c * a.h := by ring
        rw [e1] at hvu
        have e1' : ((i + 1 : Nat) : ℚ) * a.c * a.h = i * a.c * a.h + a.c * a.h := by push_cast; ring
        have e2 : (((i + 1 : Nat) : ℚ) + 1) * a.c * a.h = i * a.c * a.h + a.c * a.h + a.c * a.h := by push_cast; ring
        have p1 : a.lo (i + 1) ≤ v := by
          rw [hl, if_neg (by omega), e1']
          linarith
        have p2 : v ≤ a.hi (i + 1) := by
          rw [hu, e2]
          split <;> linarith
        have g0 := hgap 0 i (Nat.zero_le _)
        have g1 := hgap (i + 1 + 1) a.n (by omega)
        have e3 : ((i + 1 + 1 : Nat) : ℚ) * a.c * a.h = i * a.c * a.h + a.c * a.h + a.c * a.h := by push_cast; ring
        rw [e3] at g1
        push_cast at g0
        refine ⟨fun _ => ⟨i + 1, v, ?_, ws (i + 1) (by omega), p1, p2, fun _ => rfl, 0, by simp⟩, fun hk => absurd ⟨?_, ?_⟩ hk⟩
        · rw [hs, adj]; omega
        · linarith
        · rw [hsub]; linarith
    · have hs : side (a.lo i) (a.hi i) (.val v) = 0 := by
        simp only [side]
        rw [if_neg (not_lt.mpr hvl), if_neg (not_lt.mpr hvu)]
      refine ⟨fun _ => ⟨i, v, ?_, ws i hi, hvl, hvu, fun _ => rfl, 0, by simp⟩, fun hk => absurd ⟨?_, ?_⟩ hk⟩
      · rw [hs, adj]; omega
      · rw [hl] at hvl
        by_cases h0 : i = 0
        · rw [if_pos h0, h0] at hvl
          push_cast at hvl
          linarith
        · rw [if_neg h0] at hvl
          have g1 := hgap 1 i (by omega)
          have : ((1 : Nat) : ℚ) * a.c * a.h = a.c * a.h := by push_cast; ring
          linarith
      · rw [hu] at hvu
        rw [hsub]
        by_cases h0 : i = a.n - 1
        · rw [if_pos h0] at hvu
          have e : ((i : ℚ) + 1) = a.n := by
            have : i + 1 = a.n := by omega
            exact_mod_cast this
          rw [e] at hvu
          linarith
        · rw [if_neg h0] at hvu
          have g1 := hgap (i + 1 + 1) a.n (by omega)
          have e3 : ((i + 1 + 1 : Nat) : ℚ) * a.c * a.h = ((i : ℚ) + 1) * a.c * a.h + a.c * a.h := by push_cast; ring
          linarith
end Open

section Two
variable {R : Type} {ax ay : Axis} {Lx Ly : ℚ} {kx ky : Prop}

theorem lands2 (hpx : ax.bc.Paired) (hpy : ay.bc.Paired) (p : Nat) (pp : P2)
    (hp : (createPatches2 ax.n ay.n)[p]? = some pp) (vx vy : Rat) (r : R)
    (hx : Lands ax pp.ix vx Lx kx) (hy : Lands ay pp.iy vy Ly ky) :
    (kx ∧ ky → ∃ (q : Nat) (qq : P2) (wx wy : ℚ), (createPatches2 ax.n ay.n)[q]? = some qq ∧
      dest2 (neighborIpatch2 ax.n ay.n ax.bc ay.bc (createPatches2 ax.n ay.n) (createPatches2 ax.n ay.n))
        (ax.bnd fun ip => ((createPatches2 ax.n ay.n)[ip]?.map P2.ix).getD 0)
        (ay.bnd fun ip => ((createPatches2 ax.n ay.n)[ip]?.map P2.iy).getD 0) p
        ⟨.val vx, .val vy, r⟩ = some (q, ⟨.val wx, .val wy, r⟩) ∧
      (ax.lo qq.ix ≤ wx ∧ wx ≤ ax.hi qq.ix) ∧ (ay.lo qq.iy ≤ wy ∧ wy ≤ ay.hi qq.iy) ∧
      (∃ z : ℤ, wx = vx + z * Lx) ∧ ∃ z : ℤ, wy = vy + z * Ly) ∧
    (¬ (kx ∧ ky) →
      dest2 (neighborIpatch2 ax.n ay.n ax.bc ay.bc (createPatches2 ax.n ay.n) (createPatches2 ax.n ay.n))
        (ax.bnd fun ip => ((createPatches2 ax.n ay.n)[ip]?.map P2.ix).getD 0)
        (ay.bnd fun ip => ((createPatches2 ax.n ay.n)[ip]?.map P2.iy).getD 0) p
        (⟨.val vx, .val vy, r⟩ : A2 R) = none ∧
      OneStep2 (neighborIpatch2 ax.n ay.n ax.bc ay.bc (createPatches2 ax.n ay.n) (createPatches2 ax.n ay.n))
        (ax.bnd fun ip => ((createPatches2 ax.n ay.n)[ip]?.map P2.ix).getD 0)
        (ay.bnd fun ip => ((createPatches2 ax.n ay.n)[ip]?.map P2.iy).getD 0) p
        (⟨.val vx, .val vy, r⟩ : A2 R)) := by
  have hg := grid_createPatches2 ax.n ay.n
  have hpm := List.mem_of_getElem? hp
  have hb := hg.bound pp hpm
  have bnd_at : ∀ (a : Axis) (f : Nat → Nat) (k m : Nat), f k = m → (a.bnd f).lo k = a.lo m ∧
      (a.bnd f).hi k = a.hi m := by
    intro a f k m h; simp only [Axis.bnd, h, and_self]
  have cx : ((createPatches2 ax.n ay.n)[p]?.map P2.ix).getD 0 = pp.ix := by rw [hp]; rfl
  have cy : ((createPatches2 ax.n ay.n)[p]?.map P2.iy).getD 0 = pp.iy := by rw [hp]; rfl
  have px := bnd_at ax (fun ip => ((createPatches2 ax.n ay.n)[ip]?.map P2.ix).getD 0) p _ cx
  have py := bnd_at ay (fun ip => ((createPatches2 ax.n ay.n)[ip]?.map P2.iy).getD 0) p _ cy
  refine ⟨fun ⟨hkx, hky⟩ => ?_, fun hk => ?_⟩
  · obtain ⟨mx, wx, hmx, hwx, lx, ux, sx, zx⟩ := hx.stay hkx
    obtain ⟨my, wy, hmy, hwy, ly, uy, sy, zy⟩ := hy.stay hky
    obtain ⟨qq, hqm, eqx, eqy⟩ := full_createPatches2 ax.n ay.n mx hmx.1 my hmy.1
    obtain ⟨q, hql, hq⟩ := List.getElem_of_mem hqm
    have hq' : (createPatches2 ax.n ay.n)[q]? = some qq := by rw [List.getElem?_eq_getElem hql, hq]
    have dx : ((createPatches2 ax.n ay.n)[q]?.map P2.ix).getD 0 = mx := by rw [hq', ← eqx]; rfl
    have dy : ((createPatches2 ax.n ay.n)[q]?.map P2.iy).getD 0 = my := by rw [hq', ← eqy]; rfl
    have qx := bnd_at ax (fun ip => ((createPatches2 ax.n ay.n)[ip]?.map P2.ix).getD 0) q _ dx
    have qy := bnd_at ay (fun ip => ((createPatches2 ax.n ay.n)[ip]?.map P2.iy).getD 0) q _ dy
    refine ⟨q, qq, wx, wy, hq', ?_, by rw [eqx]; exact ⟨lx, ux⟩, by rw [eqy]; exact ⟨ly, uy⟩, zx, zy⟩
    unfold dest2
    simp only [px.1, px.2, py.1, py.2]
    by_cases h0 : side (ax.lo pp.ix) (ax.hi pp.ix) (.val vx) = 0 ∧
        side (ay.lo pp.iy) (ay.hi pp.iy) (.val vy) = 0
    · rw [if_pos h0]
      rw [sx h0.1, sy h0.2]
      rw [h0.1] at hmx
      rw [h0.2] at hmy
      have id : ∀ (n : Nat) (b : AxisBC) (i : Nat), i < n → Adj n b i 0 i := by
        intro n b i hi
        refine ⟨hi, ?_⟩
        split <;> simp
      have e1 : mx = pp.ix := hmx.unique (id _ _ _ hb.1)
      have e2 : my = pp.iy := hmy.unique (id _ _ _ hb.2)
      have : qq = pp := hg.coordInj qq hqm pp hpm (eqx.trans e1) (eqy.trans e2)
      subst this
      have hqp : q = p := by
        obtain ⟨hpl, hpe⟩ := List.getElem?_eq_some_iff.mp hp
        exact (List.Nodup.getElem_inj_iff (nodup_createPatches2 ax.n ay.n)).mp (hq.trans hpe.symm)
      rw [hqp]
    · rw [if_neg h0]
      obtain ⟨b, hfb, hob⟩ := find_offset _ _ (side_cases (ax.lo pp.ix) (ax.hi pp.ix) (.val vx))
        (side_cases (ay.lo pp.iy) (ay.hi pp.iy) (.val vy)) h0
      simp only [hfb]
      have hnb : neighborIpatch2 ax.n ay.n ax.bc ay.bc (createPatches2 ax.n ay.n)
          (createPatches2 ax.n ay.n) p b = some q := by
        rw [neighborIpatch2_some hpx hpy hg (fun _ h => h) (nodup_createPatches2 _ _), hob]
        exact ⟨pp, qq, hp, hq', by rw [eqx]; exact hmx, by rw [eqy]; exact hmy⟩
      simp only [hnb]
      rw [hwx _ q dx, hwy _ q dy, if_pos]
      rw [side_within, side_within]
      simp only [Within, qx.1, qx.2, qy.1, qy.2]
      exact ⟨⟨lx, ux⟩, ⟨ly, uy⟩⟩
  · have none' : ∀ b, b.offset = (side (ax.lo pp.ix) (ax.hi pp.ix) (.val vx), side (ay.lo pp.iy) (ay.hi pp.iy) (.val vy)) →
        neighborIpatch2 ax.n ay.n ax.bc ay.bc (createPatches2 ax.n ay.n) (createPatches2 ax.n ay.n) p b = none := by
      intro b hob
      rw [Option.eq_none_iff_forall_ne_some]
      intro q hq
      rw [neighborIpatch2_some hpx hpy hg (fun _ h => h) (nodup_createPatches2 _ _), hob] at hq
      obtain ⟨pp', qq, h1, h2, h3, h4⟩ := hq
      rw [hp] at h1
      injection h1 with h1
      subst h1
      by_cases h : kx
      · exact (hy.gone fun h' => hk ⟨h, h'⟩).2 _ h4
      · exact (hx.gone h).2 _ h3
    have h0 : ¬ (side (ax.lo pp.ix) (ax.hi pp.ix) (.val vx) = 0 ∧ side (ay.lo pp.iy) (ay.hi pp.iy) (.val vy) = 0) := by
      rintro ⟨e1, e2⟩
      by_cases h : kx
      · exact (hy.gone fun h' => hk ⟨h, h'⟩).1 e2
      · exact (hx.gone h).1 e1
    constructor
    · unfold dest2
      simp only [px.1, px.2, py.1, py.2]
      rw [if_neg h0]
      obtain ⟨b, hfb, hob⟩ := find_offset _ _ (side_cases (ax.lo pp.ix) (ax.hi pp.ix) (.val vx))
        (side_cases (ay.lo pp.iy) (ay.hi pp.iy) (.val vy)) h0
      simp only [hfb, none' b hob]
    · intro b q hob hq
      simp only [px.1, px.2, py.1, py.2] at hob
      rw [none' b hob] at hq
      cases hq
end Two

section Three
variable {R : Type} {ax ay az : Axis} {Lx Ly Lz : ℚ} {kx ky kz : Prop}

theorem lands3 (hpx : ax.bc.Paired) (hpy : ay.bc.Paired) (hpz : az.bc.Paired) (p : Nat) (pp : P3)
    (hp : (createPatches3 ax.n ay.n az.n)[p]? = some pp) (vx vy vz : Rat) (r : R)
    (hx : Lands ax pp.ix vx Lx kx) (hy : Lands ay pp.iy vy Ly ky) (hz : Lands az pp.iz vz Lz kz) :
    (kx ∧ ky ∧ kz → ∃ (q : Nat) (qq : P3) (wx wy wz : ℚ), (createPatches3 ax.n ay.n az.n)[q]? = some qq ∧
      dest3 (neighborIpatch3 ax.n ay.n az.n ax.bc ay.bc az.bc (createPatches3 ax.n ay.n az.n) (createPatches3 ax.n ay.n az.n))
        (ax.bnd fun ip => ((createPatches3 ax.n ay.n az.n)[ip]?.map P3.ix).getD 0)
        (ay.bnd fun ip => ((createPatches3 ax.n ay.n az.n)[ip]?.map P3.iy).getD 0)
        (az.bnd fun ip => ((createPatches3 ax.n ay.n az.n)[ip]?.map P3.iz).getD 0) p
        ⟨.val vx, .val vy, .val vz, r⟩ = some (q, ⟨.val wx, .val wy, .val wz, r⟩) ∧
      (ax.lo qq.ix ≤ wx ∧ wx ≤ ax.hi qq.ix) ∧ (ay.lo qq.iy ≤ wy ∧ wy ≤ ay.hi qq.iy) ∧
      (az.lo qq.iz ≤ wz ∧ wz ≤ az.hi qq.iz) ∧
      (∃ z : ℤ, wx = vx + z * Lx) ∧ (∃ z : ℤ, wy = vy + z * Ly) ∧ ∃ z : ℤ, wz = vz + z * Lz) ∧
    (¬ (kx ∧ ky ∧ kz) →
      dest3 (neighborIpatch3 ax.n ay.n az.n ax.bc ay.bc az.bc (createPatches3 ax.n ay.n az.n) (createPatches3 ax.n ay.n az.n))
        (ax.bnd fun ip => ((createPatches3 ax.n ay.n az.n)[ip]?.map P3.ix).getD 0)
        (ay.bnd fun ip => ((createPatches3 ax.n ay.n az.n)[ip]?.map P3.iy).getD 0)
        (az.bnd fun ip => ((createPatches3 ax.n ay.n az.n)[ip]?.map P3.iz).getD 0) p
        (⟨.val vx, .val vy, .val vz, r⟩ : A3 R) = none ∧
      OneStep3 (neighborIpatch3 ax.n ay.n az.n ax.bc ay.bc az.bc (createPatches3 ax.n ay.n az.n) (createPatches3 ax.n ay.n az.n))
        (ax.bnd fun ip => ((createPatches3 ax.n ay.n az.n)[ip]?.map P3.ix).getD 0)
        (ay.bnd fun ip => ((createPatches3 ax.n ay.n az.n)[ip]?.map P3.iy).getD 0)
        (az.bnd fun ip => ((createPatches3 ax.n ay.n az.n)[ip]?.map P3.iz).getD 0) p
        (⟨.val vx, .val vy, .val vz, r⟩ : A3 R)) := by
  have hg := grid_createPatches3 ax.n ay.n az.n
  have hpm := List.mem_of_getElem? hp
  have hb := hg.bound pp hpm
  have bnd_at : ∀ (a : Axis) (f : Nat → Nat) (k m : Nat), f k = m → (a.bnd f).lo k = a.lo m ∧
      (a.bnd f).hi k = a.hi m := by
    intro a f k m h; simp only [Axis.bnd, h, and_self]
  have cx : ((createPatches3 ax.n ay.n az.n)[p]?.map P3.ix).getD 0 = pp.ix := by rw [hp]; rfl
  have cy : ((createPatches3 ax.n ay.n az.n)[p]?.map P3.iy).getD 0 = pp.iy := by rw [hp]; rfl
  have cz : ((createPatches3 ax.n ay.n az.n)[p]?.map P3.iz).getD 0 = pp.iz := by rw [hp]; rfl
  have px := bnd_at ax (fun ip => ((createPatches3 ax.n ay.n az.n)[ip]?.map P3.ix).getD 0) p _ cx
  have py := bnd_at ay (fun ip => ((createPatches3 ax.n ay.n az.n)[ip]?.map P3.iy).getD 0) p _ cy
  have pz := bnd_at az (fun ip => ((createPatches3 ax.n ay.n az.n)[ip]?.map P3.iz).getD 0) p _ cz
  refine ⟨fun ⟨hkx, hky, hkz⟩ => ?_, fun hk => ?_⟩
  · obtain ⟨mx, wx, hmx, hwx, lx, ux, sx, zx⟩ := hx.stay hkx
    obtain ⟨my, wy, hmy, hwy, ly, uy, sy, zy⟩ := hy.stay hky
    obtain ⟨mz, wz, hmz, hwz, lz, uz, sz, zz⟩ := hz.stay hkz
    obtain ⟨qq, hqm, eqx, eqy, eqz⟩ := full_createPatches3 ax.n ay.n az.n mx hmx.1 my hmy.1 mz hmz.1
    obtain ⟨q, hql, hq⟩ := List.getElem_of_mem hqm
    have hq' : (createPatches3 ax.n ay.n az.n)[q]? = some qq := by rw [List.getElem?_eq_getElem hql, hq]
    have dx : ((createPatches3 ax.n ay.n az.n)[q]?.map P3.ix).getD 0 = mx := by rw [hq', ← eqx]; rfl
    have dy : ((createPatches3 ax.n ay.n az.n)[q]?.map P3.iy).getD 0 = my := by rw [hq', ← eqy]; rfl
    have dz : ((createPatches3 ax.n ay.n az.n)[q]?.map P3.iz).getD 0 = mz := by rw [hq', ← eqz]; rfl
    have qx := bnd_at ax (fun ip => ((createPatches3 ax.n ay.n az.n)[ip]?.map P3.ix).getD 0) q _ dx
    have qy := bnd_at ay (fun ip => ((createPatches3 ax.n ay.n az.n)[ip]?.map P3.iy).getD 0) q _ dy
    have qz := bnd_at az (fun ip => ((createPatches3 ax.n ay.n az.n)[ip]?.map P3.iz).getD 0) q _ dz
    refine ⟨q, qq, wx, wy, wz, hq', ?_, by rw [eqx]; exact ⟨lx, ux⟩, by rw [eqy]; exact ⟨ly, uy⟩,
      by rw [eqz]; exact ⟨lz, uz⟩, zx, zy, zz⟩
    unfold dest3
    simp only [px.1, px.2, py.1, py.2, pz.1, pz.2]
    by_cases h0 : side (ax.lo pp.ix) (ax.hi pp.ix) (.val vx) = 0 ∧
        side (ay.lo pp.iy) (ay.hi pp.iy) (.val vy) = 0 ∧ side (az.lo pp.iz) (az.hi pp.iz) (.val vz) = 0
    · rw [if_pos h0]
      rw [sx h0.1, sy h0.2.1, sz h0.2.2]
      rw [h0.1] at hmx
      rw [h0.2.1] at hmy
      rw [h0.2.2] at hmz
      have id : ∀ (n : Nat) (b : AxisBC) (i : Nat), i < n → Adj n b i 0 i := by
        intro n b i hi
        refine ⟨hi, ?_⟩
        split <;> simp
      have e1 : mx = pp.ix := hmx.unique (id _ _ _ hb.1)
      have e2 : my = pp.iy := hmy.unique (id _ _ _ hb.2.1)
      have e3 : mz = pp.iz := hmz.unique (id _ _ _ hb.2.2)
      have : qq = pp := hg.coordInj qq hqm pp hpm (eqx.trans e1) (eqy.trans e2) (eqz.trans e3)
      subst this
      have hqp : q = p := by
        obtain ⟨hpl, hpe⟩ := List.getElem?_eq_some_iff.mp hp
        exact (List.Nodup.getElem_inj_iff (nodup_createPatches3 ax.n ay.n az.n)).mp (hq.trans hpe.symm)
      rw [hqp]
    · rw [if_neg h0]
      obtain ⟨b, hfb, hob⟩ := find_offset3 _ _ _ (side_cases (ax.lo pp.ix) (ax.hi pp.ix) (.val vx))
        (side_cases (ay.lo pp.iy) (ay.hi pp.iy) (.val vy)) (side_cases (az.lo pp.iz) (az.hi pp.iz) (.val vz)) h0
      simp only [hfb]
      have hnb : neighborIpatch3 ax.n ay.n az.n ax.bc ay.bc az.bc (createPatches3 ax.n ay.n az.n)
          (createPatches3 ax.n ay.n az.n) p b = some q := by
        rw [neighborIpatch3_some hpx hpy hpz hg (fun _ h => h) (nodup_createPatches3 _ _ _), hob]
        exact ⟨pp, qq, hp, hq', by rw [eqx]; exact hmx, by rw [eqy]; exact hmy, by rw [eqz]; exact hmz⟩
      simp only [hnb]
      rw [hwx _ q dx, hwy _ q dy, hwz _ q dz, if_pos]
      rw [side_within, side_within, side_within]
      simp only [Within, qx.1, qx.2, qy.1, qy.2, qz.1, qz.2]
      exact ⟨⟨lx, ux⟩, ⟨ly, uy⟩, ⟨lz, uz⟩⟩
  · have none' : ∀ b, b.offset = (side (ax.lo pp.ix) (ax.hi pp.ix) (.val vx), side (ay.lo pp.iy) (ay.hi pp.iy) (.val vy),
          side (az.lo pp.iz) (az.hi pp.iz) (.val vz)) →
        neighborIpatch3 ax.n ay.n az.n ax.bc ay.bc az.bc (createPatches3 ax.n ay.n az.n) (createPatches3 ax.n ay.n az.n) p b
          = none := by
      intro b hob
      rw [Option.eq_none_iff_forall_ne_some]
      intro q hq
      rw [neighborIpatch3_some hpx hpy hpz hg (fun _ h => h) (nodup_createPatches3 _ _ _), hob] at hq
      obtain ⟨pp', qq, h1, h2, h3, h4, h5⟩ := hq
      rw [hp] at h1
      injection h1 with h1
      subst h1
      by_cases h : kx
      · by_cases h' : ky
        · exact (hz.gone fun h'' => hk ⟨h, h', h''⟩).2 _ h5
        · exact (hy.gone h').2 _ h4
      · exact (hx.gone h).2 _ h3
    have h0 : ¬ (side (ax.lo pp.ix) (ax.hi pp.ix) (.val vx) = 0 ∧ side (ay.lo pp.iy) (ay.hi pp.iy) (.val vy) = 0 ∧
        side (az.lo pp.iz) (az.hi pp.iz) (.val vz) = 0) := by
      rintro ⟨e1, e2, e3⟩
      by_cases h : kx
      · by_cases h' : ky
        · exact (hz.gone fun h'' => hk ⟨h, h', h''⟩).1 e3
        · exact (hy.gone h').1 e2
      · exact (hx.gone h).1 e1
    constructor
    · unfold dest3
      simp only [px.1, px.2, py.1, py.2, pz.1, pz.2]
      rw [if_neg h0]
      obtain ⟨b, hfb, hob⟩ := find_offset3 _ _ _ (side_cases (ax.lo pp.ix) (ax.hi pp.ix) (.val vx))
        (side_cases (ay.lo pp.iy) (ay.hi pp.iy) (.val vy)) (side_cases (az.lo pp.iz) (az.hi pp.iz) (.val vz)) h0
      simp only [hfb, none' b hob]
    · intro b q hob hq
      simp only [px.1, px.2, py.1, py.2, pz.1, pz.2] at hob
      rw [none' b hob] at hq
      cases hq
end Three

end Verif.WholePml
