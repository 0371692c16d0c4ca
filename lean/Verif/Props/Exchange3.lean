import Verif.Props.Exchange
/-!
# C09 in 3D — the particle exchange on a domain periodic in x, y and z

Vocabulary as in `Verif/Props/Exchange.lean`: `Near` (inside the patch or outside by at most one patch
length), `foldBack` (shift by one domain length if outside the domain), `dest3`.
-/
namespace Verif.ExchangeProps
open Verif Verif.Exchange Verif.Geometry Verif.Neighbors
open Verif.Particles (F64)

theorem find_offset3 (sx sy sz : Int) (hx : sx = -1 ∨ sx = 0 ∨ sx = 1) (hy : sy = -1 ∨ sy = 0 ∨ sy = 1)
    (hz : sz = -1 ∨ sz = 0 ∨ sz = 1) (h : ¬ (sx = 0 ∧ sy = 0 ∧ sz = 0)) :
    ∃ b, B3.all.find? (fun b => decide (b.offset = (sx, sy, sz))) = some b ∧ b.offset = (sx, sy, sz) := by
  rcases hx with rfl | rfl | rfl <;> rcases hy with rfl | rfl | rfl <;> rcases hz with rfl | rfl | rfl <;>
    first
      | exact absurd ⟨rfl, rfl, rfl⟩ h
      | exact ⟨_, rfl, rfl⟩

/-- a coordinate inside a patch is not folded -/
theorem foldBack_inside {a : Axis} (ha : PeriodicAxis a) {i : Nat} (hi : i < a.n) {v : Rat}
    (h : side (a.lo i) (a.hi i) (.val v) = 0) : foldBack a v = v := by
  have := (side_within _ _ _).mp h
  have l := a.lo_periodic ha.n_pos ha.lo i
  have u := a.hi_periodic ha.n_pos ha.hi i
  have gx := a.gmax_eq
  have hc : (0 : Rat) ≤ (a.c : Rat) * a.h := by have := ha.h_pos; positivity
  have k1 : (0 : Rat) ≤ (i : Rat) * (a.c : Rat) * a.h := by have := ha.h_pos; positivity
  have k2 : ((i : Rat) + 1) * (a.c : Rat) * a.h ≤ (a.n : Rat) * (a.c : Rat) * a.h := by
    have : (i : Rat) + 1 ≤ a.n := by exact_mod_cast hi
    have := mul_le_mul_of_nonneg_right this hc
    nlinarith
  have gm : a.gmin = -a.h / 2 := rfl
  simp only [Within] at this
  unfold foldBack
  rw [if_neg (by rw [gm]; linarith), if_neg (by rw [gx]; linarith)]

section periodic
variable {R : Type} {ax ay az : Axis}

/-- **C09 (3D).** In a simulation that is periodic in the three directions: a living particle of patch
number `p` whose coordinates lie inside the patch or outside it by at most one patch length is not
removed; it ends in a patch `q` with exactly its old attributes, each coordinate folded back by one
domain length if (and only if) it is outside the domain, and the folded coordinates lie within the
bounds of `q`. -/
theorem periodic3_lands_inside (hx : PeriodicAxis ax) (hy : PeriodicAxis ay) (hz : PeriodicAxis az)
    (p : Nat) (pp : P3) (hp : (createPatches3 ax.n ay.n az.n)[p]? = some pp) (vx vy vz : Rat) (r : R)
    (hvx : Near ax pp.ix vx) (hvy : Near ay pp.iy vy) (hvz : Near az pp.iz vz) :
    ∃ (q : Nat) (qq : P3), (createPatches3 ax.n ay.n az.n)[q]? = some qq ∧
      dest3 (neighborIpatch3 ax.n ay.n az.n ax.bc ay.bc az.bc (createPatches3 ax.n ay.n az.n)
          (createPatches3 ax.n ay.n az.n))
        (ax.bnd fun ip => ((createPatches3 ax.n ay.n az.n)[ip]?.map P3.ix).getD 0)
        (ay.bnd fun ip => ((createPatches3 ax.n ay.n az.n)[ip]?.map P3.iy).getD 0)
        (az.bnd fun ip => ((createPatches3 ax.n ay.n az.n)[ip]?.map P3.iz).getD 0) p
        ⟨.val vx, .val vy, .val vz, r⟩ =
        some (q, ⟨.val (foldBack ax vx), .val (foldBack ay vy), .val (foldBack az vz), r⟩) ∧
      ax.lo qq.ix ≤ foldBack ax vx ∧ foldBack ax vx ≤ ax.hi qq.ix ∧
      ay.lo qq.iy ≤ foldBack ay vy ∧ foldBack ay vy ≤ ay.hi qq.iy ∧
      az.lo qq.iz ≤ foldBack az vz ∧ foldBack az vz ≤ az.hi qq.iz := by
  have hg := grid_createPatches3 ax.n ay.n az.n
  have hpm := List.mem_of_getElem? hp
  have hb := hg.bound pp hpm
  have hpx : ax.bc.Paired := by unfold AxisBC.Paired; rw [hx.lo, hx.hi]
  have hpy : ay.bc.Paired := by unfold AxisBC.Paired; rw [hy.lo, hy.hi]
  have hpz : az.bc.Paired := by unfold AxisBC.Paired; rw [hz.lo, hz.hi]
  have cx : ((createPatches3 ax.n ay.n az.n)[p]?.map P3.ix).getD 0 = pp.ix := by rw [hp]; rfl
  have cy : ((createPatches3 ax.n ay.n az.n)[p]?.map P3.iy).getD 0 = pp.iy := by rw [hp]; rfl
  have cz : ((createPatches3 ax.n ay.n az.n)[p]?.map P3.iz).getD 0 = pp.iz := by rw [hp]; rfl
  obtain ⟨mx, hmx⟩ := adj_exists hx pp.ix (side (ax.lo pp.ix) (ax.hi pp.ix) (.val vx))
  obtain ⟨my, hmy⟩ := adj_exists hy pp.iy (side (ay.lo pp.iy) (ay.hi pp.iy) (.val vy))
  obtain ⟨mz, hmz⟩ := adj_exists hz pp.iz (side (az.lo pp.iz) (az.hi pp.iz) (.val vz))
  obtain ⟨qq, hqm, eqx, eqy, eqz⟩ := full_createPatches3 ax.n ay.n az.n mx hmx.1 my hmy.1 mz hmz.1
  obtain ⟨q, hql, hq⟩ := List.getElem_of_mem hqm
  have hq' : (createPatches3 ax.n ay.n az.n)[q]? = some qq := by rw [List.getElem?_eq_getElem hql, hq]
  have dx : ((createPatches3 ax.n ay.n az.n)[q]?.map P3.ix).getD 0 = mx := by rw [hq', ← eqx]; rfl
  have dy : ((createPatches3 ax.n ay.n az.n)[q]?.map P3.iy).getD 0 = my := by rw [hq', ← eqy]; rfl
  have dz : ((createPatches3 ax.n ay.n az.n)[q]?.map P3.iz).getD 0 = mz := by rw [hq', ← eqz]; rfl
  obtain ⟨wx, hwx, lx, ux, ex⟩ := axis_periodic ax hx.n_pos hx.c_pos hx.h_pos hx.lo hx.hi hb.1 vx
    hvx.1 hvx.2 hmx (fun ip => ((createPatches3 ax.n ay.n az.n)[ip]?.map P3.ix).getD 0) q dx
  obtain ⟨wy, hwy, ly, uy, ey⟩ := axis_periodic ay hy.n_pos hy.c_pos hy.h_pos hy.lo hy.hi hb.2.1 vy
    hvy.1 hvy.2 hmy (fun ip => ((createPatches3 ax.n ay.n az.n)[ip]?.map P3.iy).getD 0) q dy
  obtain ⟨wz, hwz, lz, uz, ez⟩ := axis_periodic az hz.n_pos hz.c_pos hz.h_pos hz.lo hz.hi hb.2.2 vz
    hvz.1 hvz.2 hmz (fun ip => ((createPatches3 ax.n ay.n az.n)[ip]?.map P3.iz).getD 0) q dz
  have ex' : wx = foldBack ax vx := ex
  have ey' : wy = foldBack ay vy := ey
  have ez' : wz = foldBack az vz := ez
  rw [ex'] at hwx lx ux
  rw [ey'] at hwy ly uy
  rw [ez'] at hwz lz uz
  refine ⟨q, qq, hq', ?_, by rw [eqx]; exact lx, by rw [eqx]; exact ux, by rw [eqy]; exact ly,
    by rw [eqy]; exact uy, by rw [eqz]; exact lz, by rw [eqz]; exact uz⟩
  unfold dest3
  have bnd_at : ∀ (a : Axis) (f : Nat → Nat) (k m : Nat), f k = m → (a.bnd f).lo k = a.lo m ∧
      (a.bnd f).hi k = a.hi m := by
    intro a f k m h; simp only [Axis.bnd, h, and_self]
  have px := bnd_at ax (fun ip => ((createPatches3 ax.n ay.n az.n)[ip]?.map P3.ix).getD 0) p _ cx
  have py := bnd_at ay (fun ip => ((createPatches3 ax.n ay.n az.n)[ip]?.map P3.iy).getD 0) p _ cy
  have pz := bnd_at az (fun ip => ((createPatches3 ax.n ay.n az.n)[ip]?.map P3.iz).getD 0) p _ cz
  have qx := bnd_at ax (fun ip => ((createPatches3 ax.n ay.n az.n)[ip]?.map P3.ix).getD 0) q _ dx
  have qy := bnd_at ay (fun ip => ((createPatches3 ax.n ay.n az.n)[ip]?.map P3.iy).getD 0) q _ dy
  have qz := bnd_at az (fun ip => ((createPatches3 ax.n ay.n az.n)[ip]?.map P3.iz).getD 0) q _ dz
  simp only [px.1, px.2, py.1, py.2, pz.1, pz.2]
  by_cases h0 : side (ax.lo pp.ix) (ax.hi pp.ix) (.val vx) = 0 ∧
      side (ay.lo pp.iy) (ay.hi pp.iy) (.val vy) = 0 ∧ side (az.lo pp.iz) (az.hi pp.iz) (.val vz) = 0
  · rw [if_pos h0]
    -- q = p
    rw [h0.1] at hmx
    rw [h0.2.1] at hmy
    rw [h0.2.2] at hmz
    have i1 : Adj ax.n ax.bc pp.ix 0 pp.ix := ⟨hb.1, by rw [if_pos hx.lo]; simp⟩
    have i2 : Adj ay.n ay.bc pp.iy 0 pp.iy := ⟨hb.2.1, by rw [if_pos hy.lo]; simp⟩
    have i3 : Adj az.n az.bc pp.iz 0 pp.iz := ⟨hb.2.2, by rw [if_pos hz.lo]; simp⟩
    have e1 : mx = pp.ix := hmx.unique i1
    have e2 : my = pp.iy := hmy.unique i2
    have e3 : mz = pp.iz := hmz.unique i3
    have : qq = pp := hg.coordInj qq hqm pp hpm (eqx.trans e1) (eqy.trans e2) (eqz.trans e3)
    subst this
    have hqp : q = p := by
      obtain ⟨hpl, hpe⟩ := List.getElem?_eq_some_iff.mp hp
      exact (List.Nodup.getElem_inj_iff (nodup_createPatches3 ax.n ay.n az.n)).mp (hq.trans hpe.symm)
    rw [foldBack_inside hx hb.1 h0.1, foldBack_inside hy hb.2.1 h0.2.1, foldBack_inside hz hb.2.2 h0.2.2, hqp]
  · rw [if_neg h0]
    obtain ⟨b, hfb, hob⟩ := find_offset3 _ _ _ (side_cases (ax.lo pp.ix) (ax.hi pp.ix) (.val vx))
      (side_cases (ay.lo pp.iy) (ay.hi pp.iy) (.val vy)) (side_cases (az.lo pp.iz) (az.hi pp.iz) (.val vz)) h0
    simp only [hfb]
    have hnb : neighborIpatch3 ax.n ay.n az.n ax.bc ay.bc az.bc (createPatches3 ax.n ay.n az.n)
        (createPatches3 ax.n ay.n az.n) p b = some q := by
      rw [neighborIpatch3_some hpx hpy hpz hg (fun _ h => h) (nodup_createPatches3 _ _ _), hob]
      exact ⟨pp, qq, hp, hq', by rw [eqx]; exact hmx, by rw [eqy]; exact hmy, by rw [eqz]; exact hmz⟩
    simp only [hnb]
    rw [hwx, hwy, hwz]
    rw [if_pos]
    rw [side_within, side_within, side_within]
    simp only [Within, qx.1, qx.2, qy.1, qy.2, qz.1, qz.2]
    exact ⟨⟨lx, ux⟩, ⟨ly, uy⟩, ⟨lz, uz⟩⟩

/-- **C09 / C10 corollary, 3D**: on a domain periodic in the three directions no particle is lost as
long as none moves by more than one patch: the payloads of the living particles are the same multiset
before and after. -/
theorem periodic3_conserves (hx : PeriodicAxis ax) (hy : PeriodicAxis ay) (hz : PeriodicAxis az)
    (blank : A3 R) (s : Nat → List (Slot (A3 R))) {ord2 ord3 : List Nat}
    (h2 : ord2.Perm (List.range (createPatches3 ax.n ay.n az.n).length))
    (h3 : ord3.Perm (List.range (createPatches3 ax.n ay.n az.n).length))
    (hnear : ∀ x ∈ living (createPatches3 ax.n ay.n az.n).length s, ∀ pp,
      (createPatches3 ax.n ay.n az.n)[x.1]? = some pp → ∃ vx vy vz, x.2.x = .val vx ∧ x.2.y = .val vy ∧
        x.2.z = .val vz ∧ Near ax pp.ix vx ∧ Near ay pp.iy vy ∧ Near az pp.iz vz) :
    ∃ s', syncParticles (simGeo3 ax ay az (createPatches3 ax.n ay.n az.n) (createPatches3 ax.n ay.n az.n)
        blank) ord2 ord3 s = some s' ∧
      ((living (createPatches3 ax.n ay.n az.n).length s').map fun x => x.2.rest).Perm
        ((living (createPatches3 ax.n ay.n az.n).length s).map fun x => x.2.rest) := by
  have hpx : ax.bc.Paired := by unfold AxisBC.Paired; rw [hx.lo, hx.hi]
  have hpy : ay.bc.Paired := by unfold AxisBC.Paired; rw [hy.lo, hy.hi]
  have hpz : az.bc.Paired := by unfold AxisBC.Paired; rw [hz.lo, hz.hi]
  have hsym := sym3_of_grid hpx hpy hpz (grid_createPatches3 ax.n ay.n az.n) (fun _ h => h)
    (nodup_createPatches3 ax.n ay.n az.n)
  obtain ⟨s', he, hp, _⟩ := exchange3_conserves
    (ax.bnd fun ip => ((createPatches3 ax.n ay.n az.n)[ip]?.map P3.ix).getD 0)
    (ay.bnd fun ip => ((createPatches3 ax.n ay.n az.n)[ip]?.map P3.iy).getD 0)
    (az.bnd fun ip => ((createPatches3 ax.n ay.n az.n)[ip]?.map P3.iz).getD 0) blank s hsym h2 h3
  refine ⟨s', he, (hp.map _).trans (List.Perm.of_eq ?_)⟩
  rw [List.map_filterMap, ← List.filterMap_eq_map]
  apply List.filterMap_congr
  intro x hxm
  have hlt : x.1 < (createPatches3 ax.n ay.n az.n).length := mem_living hxm
  have hpp : (createPatches3 ax.n ay.n az.n)[x.1]? = some (createPatches3 ax.n ay.n az.n)[x.1] :=
    List.getElem?_eq_getElem hlt
  obtain ⟨vx, vy, vz, e1, e2, e3, n1, n2, n3⟩ := hnear x hxm _ hpp
  obtain ⟨q, qq, _, hd, _⟩ := periodic3_lands_inside (R := R) hx hy hz x.1 _ hpp vx vy vz x.2.rest n1 n2 n3
  have : x.2 = ⟨.val vx, .val vy, .val vz, x.2.rest⟩ := by rw [← e1, ← e2, ← e3]
  rw [this, hd]
  rfl

end periodic

/-- The hypotheses are met: two patches of four cells per axis, a particle of the last patch that left
the domain through its upper corner. -/
example : PeriodicAxis ⟨2, 4, 1, ⟨.periodic, .periodic⟩, 0⟩ ∧
    (createPatches3 2 2 2)[7]? = some ⟨7, 1, 1, 1⟩ ∧
    Near ⟨2, 4, 1, ⟨.periodic, .periodic⟩, 0⟩ 1 8 ∧ foldBack ⟨2, 4, 1, ⟨.periodic, .periodic⟩, 0⟩ 8 = 0 := by
  refine ⟨⟨by decide, by decide, by norm_num, rfl, rfl⟩, by decide +kernel, ?_, by decide +kernel⟩
  unfold Near
  decide +kernel

end Verif.ExchangeProps
