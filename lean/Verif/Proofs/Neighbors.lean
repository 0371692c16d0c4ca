import Verif.Model.Neighbors
import Mathlib.Data.List.Basic
import Mathlib.Data.List.Nodup
import Mathlib.Data.Int.ModEq
import Mathlib.Tactic.Ring
/-!
# Lemmas about the neighbour tables
-/
namespace Verif.Neighbors

/-- Specification of adjacency along one axis with `n` patches: `m` is the patch reached from `c` by
the step `o` (in `{-1, 0, 1}`); a periodic axis is a ring. -/
def Adj (n : Nat) (bc : AxisBC) (c : Nat) (o : Int) (m : Nat) : Prop :=
  m < n ∧ if bc.lo = .periodic then (m : Int) ≡ (c : Int) + o [ZMOD n] else (m : Int) = c + o

/-- both ends of the axis carry the same boundary condition -/
def AxisBC.Paired (bc : AxisBC) : Prop := bc.lo = bc.hi

theorem wrapCoord_bounds {n : Nat} (hn : 0 < n) {bc : AxisBC} {c : Int} {m : Int}
    (h : wrapCoord n bc c = some m) : 0 ≤ m ∧ m < n := by
  unfold wrapCoord at h
  split at h
  · split at h
    · simp at h; try omega
    · simp at h
  · split at h
    · split at h
      · simp at h; try omega
      · simp at h
    · simp at h; try omega

theorem modEq_small {n : Nat} {a b : Int} (ha : 0 ≤ a) (ha' : a < n) (hb : 0 ≤ b) (hb' : b < n)
    (h : a ≡ b [ZMOD n]) : a = b := by
  unfold Int.ModEq at h
  rwa [Int.emod_eq_of_lt ha ha', Int.emod_eq_of_lt hb hb'] at h

theorem wrapCoord_iff {n : Nat} {bc : AxisBC} (hp : bc.Paired) {c : Nat} (hc : c < n) {o : Int}
    (ho : o = -1 ∨ o = 0 ∨ o = 1) (m : Nat) :
    wrapCoord n bc (c + o) = some (m : Int) ↔ Adj n bc c o m := by
  have hp' : bc.lo = bc.hi := hp
  unfold wrapCoord Adj
  rw [← hp']
  by_cases hper : bc.lo = .periodic
  · simp only [hper, if_true]
    split
    · rename_i hneg
      simp only [Option.some.injEq]
      constructor
      · intro h
        refine ⟨by omega, ?_⟩
        have : (c : Int) + o = (m : Int) - n := by omega
        rw [this]
        exact (Int.emod_emod_of_dvd _ dvd_rfl |>.symm.trans (by simp)).symm
      · rintro ⟨hm, h⟩
        have h2 : (m : Int) ≡ (n : Int) - 1 [ZMOD n] := by
          have : (c : Int) + o = -1 := by omega
          rw [this] at h
          refine h.trans ?_
          have : (n : Int) - 1 = -1 + n := by ring
          rw [this]
          unfold Int.ModEq; simp
        exact (modEq_small (by omega) (by omega) (by omega) (by omega) h2).symm
    · split
      · simp only [Option.some.injEq]
        have e : (c : Int) + o = n := by omega
        rw [e]
        constructor
        · intro h
          refine ⟨by omega, ?_⟩
          unfold Int.ModEq
          rw [← h]; simp
        · rintro ⟨hm, h⟩
          have h2 : (m : Int) ≡ 0 [ZMOD n] := h.trans (by unfold Int.ModEq; simp)
          exact (modEq_small (by omega) (by omega) (by omega) (by omega) h2).symm
      · simp only [Option.some.injEq]
        constructor
        · intro h
          refine ⟨by omega, ?_⟩
          rw [h]
        · rintro ⟨hm, h⟩
          exact (modEq_small (by omega) (by omega) (by omega) (by omega) h).symm
  · simp only [hper, if_false]
    split
    · constructor
      · intro h; simp at h
      · rintro ⟨hm, h⟩; omega
    · split
      · constructor
        · intro h; simp at h
        · rintro ⟨hm, h⟩; omega
      · simp only [Option.some.injEq]; omega

/-- stepping back undoes the step -/
theorem Adj.symm {n : Nat} {bc : AxisBC} {c : Nat} (hc : c < n) {o : Int} {m : Nat}
    (h : Adj n bc c o m) : Adj n bc m (-o) c := by
  obtain ⟨hm, h⟩ := h
  refine ⟨hc, ?_⟩
  split
  · rename_i hp
    rw [if_pos hp] at h
    have := (h.symm.add_right (-o))
    have e : (c : Int) + o + -o = c := by ring
    rwa [e] at this
  · rename_i hp
    rw [if_neg hp] at h
    omega

theorem Adj.unique {n : Nat} {bc : AxisBC} {c : Nat} {o : Int} {m m' : Nat}
    (h : Adj n bc c o m) (h' : Adj n bc c o m') : m = m' := by
  obtain ⟨hm, h⟩ := h
  obtain ⟨hm', h'⟩ := h'
  split at h
  · rename_i hp
    rw [if_pos hp] at h'
    have := modEq_small (by omega) (by omega) (by omega) (by omega) (h.trans h'.symm)
    omega
  · rename_i hp
    rw [if_neg hp] at h'
    omega

theorem B2.offset_opp (b : B2) : b.opp.offset = (-b.offset.1, -b.offset.2) := by
  cases b <;> rfl

theorem B2.offset_small (b : B2) : (b.offset.1 = -1 ∨ b.offset.1 = 0 ∨ b.offset.1 = 1) ∧
    (b.offset.2 = -1 ∨ b.offset.2 = 0 ∨ b.offset.2 = 1) := by
  cases b <;> decide

theorem B3.offset_opp (b : B3) : b.opp.offset = (-b.offset.1, -b.offset.2.1, -b.offset.2.2) := by
  cases b <;> rfl

theorem B3.offset_small (b : B3) : (b.offset.1 = -1 ∨ b.offset.1 = 0 ∨ b.offset.1 = 1) ∧
    (b.offset.2.1 = -1 ∨ b.offset.2.1 = 0 ∨ b.offset.2.1 = 1) ∧
    (b.offset.2.2 = -1 ∨ b.offset.2.2 = 0 ∨ b.offset.2.2 = 1) := by
  cases b <;> decide

/-! ## local index -/

theorem findIdx_some {l : List Nat} (hn : l.Nodup) (k i : Nat) :
    l.findIdx? (fun j : Nat => decide ((j : Int) = (k : Int))) = some i ↔ l[i]? = some k := by
  rw [List.findIdx?_eq_some_iff_getElem]
  constructor
  · rintro ⟨h, hp, _⟩
    rw [List.getElem?_eq_getElem h]
    simp at hp
    rw [hp]
  · intro h
    obtain ⟨hi, he⟩ := List.getElem?_eq_some_iff.mp h
    refine ⟨hi, by simp [he], ?_⟩
    intro j hj
    simp only [decide_eq_true_eq]
    intro hcon
    have hjk : l[j] = k := by exact_mod_cast hcon
    have := (List.Nodup.getElem_inj_iff hn (hi := by omega) (hj := hi)).mp (hjk.trans he.symm)
    omega

theorem ipatchOf_eq {l : List Nat} (hn : l.Nodup) (k i : Nat) :
    (if 0 ≤ ipatchOf l (k : Int) then some (ipatchOf l (k : Int)).toNat else none) = some i ↔
      l[i]? = some k := by
  rw [← findIdx_some hn]
  unfold ipatchOf
  simp only [Int.natCast_nonneg, if_true]
  cases h : l.findIdx? (fun j : Nat => decide ((j : Int) = (k : Int))) with
  | none => simp
  | some j => simp

/-! ## 2D -/

/-- `ps` is (part of) a grid of `npx × npy` patches: coordinates in range, no two patches on the same
grid point, no two with the same index. -/
structure Grid2 (npx npy : Nat) (ps : List P2) : Prop where
  bound : ∀ p ∈ ps, p.ix < npx ∧ p.iy < npy
  coordInj : ∀ p ∈ ps, ∀ q ∈ ps, p.ix = q.ix → p.iy = q.iy → p = q
  indexInj : ∀ p ∈ ps, ∀ q ∈ ps, p.index = q.index → p = q

/-- every grid point carries a patch -/
def Full2 (npx npy : Nat) (ps : List P2) : Prop :=
  ∀ i < npx, ∀ j < npy, ∃ p ∈ ps, p.ix = i ∧ p.iy = j

theorem mapGet2_some {npx npy : Nat} {ps : List P2} (hg : Grid2 npx npy ps) (i j k : Nat) :
    mapGet2 ps i j = some k ↔ ∃ q ∈ ps, q.ix = i ∧ q.iy = j ∧ q.index = k := by
  unfold mapGet2
  rw [Option.map_eq_some_iff]
  constructor
  · rintro ⟨q, hq, hk⟩
    have h1 := List.mem_of_find?_eq_some hq
    have h2 := List.find?_some hq
    simp at h2
    exact ⟨q, by simpa using h1, h2.1, h2.2, hk⟩
  · rintro ⟨q, hq, rfl, rfl, hk⟩
    cases hf : ps.reverse.find? (fun p => decide ((p.ix : Int) = (q.ix : Int) ∧ (p.iy : Int) = (q.iy : Int))) with
    | none =>
      rw [List.find?_eq_none] at hf
      have := hf q (by simpa using hq)
      simp at this
    | some r =>
      have h1 := List.mem_of_find?_eq_some hf
      have h2 := List.find?_some hf
      simp at h2
      have : r = q := hg.coordInj r (by simpa using h1) q hq h2.1 h2.2
      exact ⟨r, rfl, this ▸ hk⟩

theorem mapGet2_none {ps : List P2} (i j : Nat) :
    mapGet2 ps i j = none ↔ ∀ q ∈ ps, ¬ (q.ix = i ∧ q.iy = j) := by
  unfold mapGet2
  rw [Option.map_eq_none_iff, List.find?_eq_none]
  simp

/-- the neighbour entry is the index of the adjacent patch -/
theorem neighborIndex2_some {npx npy : Nat} {bx by' : AxisBC} (hx : bx.Paired) (hy : by'.Paired)
    {ps : List P2} (hg : Grid2 npx npy ps) {p : P2} (hp : p ∈ ps) (b : B2) (k : Nat) :
    neighborIndex2 npx npy bx by' ps p b = some (k : Int) ↔
      ∃ q ∈ ps, q.index = k ∧ Adj npx bx p.ix b.offset.1 q.ix ∧ Adj npy by' p.iy b.offset.2 q.iy := by
  obtain ⟨hbx, hby⟩ := hg.bound p hp
  obtain ⟨hox, hoy⟩ := B2.offset_small b
  have hxn : 0 < npx := by omega
  have hyn : 0 < npy := by omega
  unfold neighborIndex2
  cases hwx : wrapCoord npx bx (p.ix + b.offset.1) with
  | none =>
    simp only [Option.some.injEq]
    constructor
    · intro h; omega
    · rintro ⟨q, _, _, ha, _⟩
      have := (wrapCoord_iff hx hbx hox q.ix).mpr ha
      rw [hwx] at this; simp at this
  | some ni =>
    obtain ⟨a1, a2⟩ := wrapCoord_bounds hxn hwx
    obtain ⟨ni, rfl⟩ := Int.eq_ofNat_of_zero_le a1
    have hax := (wrapCoord_iff hx hbx hox ni).mp hwx
    cases hwy : wrapCoord npy by' (p.iy + b.offset.2) with
    | none =>
      simp only [Option.some.injEq]
      constructor
      · intro h; omega
      · rintro ⟨q, _, _, _, ha⟩
        have := (wrapCoord_iff hy hby hoy q.iy).mpr ha
        rw [hwy] at this; simp at this
    | some nj =>
      obtain ⟨b1, b2⟩ := wrapCoord_bounds hyn hwy
      obtain ⟨nj, rfl⟩ := Int.eq_ofNat_of_zero_le b1
      have hay := (wrapCoord_iff hy hby hoy nj).mp hwy
      simp only at *
      cases hm : mapGet2 ps ni nj with
      | none =>
        rw [mapGet2_none] at hm
        simp only
        constructor
        · intro h
          split at h
          · simp at h
          · simp at h; try omega
        · rintro ⟨q, hq, _, ha, ha'⟩
          exact absurd ⟨ha.unique hax, ha'.unique hay⟩ (hm q hq)
      | some k' =>
        obtain ⟨q, hq, e1, e2, e3⟩ := (mapGet2_some hg ni nj k').mp hm
        simp only [Option.some.injEq]
        constructor
        · intro h
          have : k' = k := by exact_mod_cast h
          exact ⟨q, hq, by omega, e1 ▸ hax, e2 ▸ hay⟩
        · rintro ⟨r, hr, hk, ha, ha'⟩
          have : r = q := hg.coordInj r hr q hq ((ha.unique hax).trans e1.symm) ((ha'.unique hay).trans e2.symm)
          subst this
          exact_mod_cast (e3.symm.trans hk)

/-- on a full grid there is no KeyError and the entry is the adjacent patch or `-1` -/
theorem neighborIndex2_total {npx npy : Nat} {bx by' : AxisBC}
    {ps : List P2} (hg : Grid2 npx npy ps) (hf : Full2 npx npy ps) {p : P2} (hp : p ∈ ps) (b : B2) :
    neighborIndex2 npx npy bx by' ps p b = some (-1) ∨
      ∃ q ∈ ps, neighborIndex2 npx npy bx by' ps p b = some (q.index : Int) := by
  obtain ⟨hbx, hby⟩ := hg.bound p hp
  unfold neighborIndex2
  cases hwx : wrapCoord npx bx (p.ix + b.offset.1) with
  | none => exact Or.inl rfl
  | some ni =>
    obtain ⟨a1, a2⟩ := wrapCoord_bounds (by omega) hwx
    obtain ⟨ni, rfl⟩ := Int.eq_ofNat_of_zero_le a1
    cases hwy : wrapCoord npy by' (p.iy + b.offset.2) with
    | none => exact Or.inl rfl
    | some nj =>
      obtain ⟨b1, b2⟩ := wrapCoord_bounds (by omega) hwy
      obtain ⟨nj, rfl⟩ := Int.eq_ofNat_of_zero_le b1
      simp only at *
      obtain ⟨q, hq, e1, e2⟩ := hf ni (by omega) nj (by omega)
      have : mapGet2 ps ni nj = some q.index := (mapGet2_some hg ni nj _).mpr ⟨q, hq, e1, e2, rfl⟩
      right
      exact ⟨q, hq, by simp only [this]⟩

/-- the local table entry: the position in the local list of the adjacent patch -/
theorem neighborIpatch2_some {npx npy : Nat} {bx by' : AxisBC} (hx : bx.Paired) (hy : by'.Paired)
    {ps loc : List P2} (hg : Grid2 npx npy ps) (hsub : ∀ p ∈ loc, p ∈ ps) (hnd : loc.Nodup)
    (i t : Nat) (b : B2) :
    neighborIpatch2 npx npy bx by' ps loc i b = some t ↔
      ∃ p q, loc[i]? = some p ∧ loc[t]? = some q ∧
        Adj npx bx p.ix b.offset.1 q.ix ∧ Adj npy by' p.iy b.offset.2 q.iy := by
  have hndI : (loc.map P2.index).Nodup := by
    rw [List.nodup_map_iff_inj_on hnd]
    intro a ha c hc h
    exact hg.indexInj a (hsub a ha) c (hsub c hc) h
  unfold neighborIpatch2
  cases hp : loc[i]? with
  | none => simp
  | some p =>
    have hpm : p ∈ ps := hsub p (List.mem_of_getElem? hp)
    simp only [Option.some.injEq, exists_and_left]
    cases hn : neighborIndex2 npx npy bx by' ps p b with
    | none =>
      simp only [reduceCtorEq, false_iff]
      rintro ⟨p', rfl, q, hq, hax, hay⟩
      have := (neighborIndex2_some hx hy hg hpm b q.index).mpr
        ⟨q, hsub q (List.mem_of_getElem? hq), rfl, hax, hay⟩
      rw [hn] at this; simp at this
    | some idx =>
      simp only
      by_cases h0 : 0 ≤ idx
      · obtain ⟨k, rfl⟩ := Int.eq_ofNat_of_zero_le h0
        rw [ipatchOf_eq hndI]
        obtain ⟨q, hq, e1, e2, e3⟩ := (neighborIndex2_some hx hy hg hpm b k).mp hn
        rw [List.getElem?_map, Option.map_eq_some_iff]
        constructor
        · rintro ⟨r, hr, hk⟩
          have : r = q := hg.indexInj r (hsub r (List.mem_of_getElem? hr)) q hq (hk.trans e1.symm)
          subst this
          exact ⟨p, rfl, r, hr, e2, e3⟩
        · rintro ⟨p', rfl, r, hr, a1, a2⟩
          refine ⟨r, hr, ?_⟩
          have : r = q := hg.coordInj r (hsub r (List.mem_of_getElem? hr)) q hq
            (a1.unique e2) (a2.unique e3)
          rw [this, e1]
      · have : ipatchOf (loc.map P2.index) idx = -1 := by
          unfold ipatchOf; rw [if_neg h0]
        rw [this]
        constructor
        · intro h; simp at h
        · rintro ⟨p', rfl, q, hq, hax, hay⟩
          have := (neighborIndex2_some hx hy hg hpm b q.index).mpr
            ⟨q, hsub q (List.mem_of_getElem? hq), rfl, hax, hay⟩
          rw [hn] at this; simp at this; omega

theorem neighborIpatch2_sym {npx npy : Nat} {bx by' : AxisBC} (hx : bx.Paired) (hy : by'.Paired)
    {ps loc : List P2} (hg : Grid2 npx npy ps) (hsub : ∀ p ∈ loc, p ∈ ps) (hnd : loc.Nodup)
    {i t : Nat} {b : B2} (h : neighborIpatch2 npx npy bx by' ps loc i b = some t) :
    neighborIpatch2 npx npy bx by' ps loc t b.opp = some i := by
  obtain ⟨p, q, hp, hq, a1, a2⟩ := (neighborIpatch2_some hx hy hg hsub hnd i t b).mp h
  have hb := hg.bound p (hsub p (List.mem_of_getElem? hp))
  rw [neighborIpatch2_some hx hy hg hsub hnd, B2.offset_opp]
  exact ⟨q, p, hq, hp, a1.symm hb.1, a2.symm hb.2⟩

/-- `create_patches` makes a full grid -/
theorem mem_createPatches2 {npx npy : Nat} {p : P2} :
    p ∈ createPatches2 npx npy ↔ p.ix < npx ∧ p.iy < npy ∧ p.index = p.ix + p.iy * npx := by
  unfold createPatches2
  simp only [List.mem_flatMap, List.mem_range, List.mem_map]
  constructor
  · rintro ⟨j, hj, i, hi, rfl⟩; exact ⟨hi, hj, rfl⟩
  · rintro ⟨h1, h2, h3⟩
    exact ⟨p.iy, h2, p.ix, h1, by rw [← h3]⟩

theorem lin_inj {n a b c d : Nat} (ha : a < n) (hc : c < n) (h : a + b * n = c + d * n) :
    a = c ∧ b = d := by
  have hn : 0 < n := by omega
  have e1 : (a + b * n) / n = b := by rw [Nat.add_mul_div_right _ _ hn, Nat.div_eq_of_lt ha]; omega
  have e2 : (c + d * n) / n = d := by rw [Nat.add_mul_div_right _ _ hn, Nat.div_eq_of_lt hc]; omega
  have : b = d := by rw [← e1, ← e2, h]
  subst this
  exact ⟨by omega, rfl⟩

theorem grid_createPatches2 (npx npy : Nat) : Grid2 npx npy (createPatches2 npx npy) := by
  refine ⟨fun p hp => ?_, fun p hp q hq h1 h2 => ?_, fun p hp q hq h => ?_⟩
  · have := mem_createPatches2.mp hp; exact ⟨this.1, this.2.1⟩
  · have a := mem_createPatches2.mp hp
    have b := mem_createPatches2.mp hq
    cases p; cases q; simp_all
  · have a := mem_createPatches2.mp hp
    have b := mem_createPatches2.mp hq
    rw [a.2.2, b.2.2] at h
    have := lin_inj a.1 b.1 h
    cases p; cases q; simp_all

theorem full_createPatches2 (npx npy : Nat) : Full2 npx npy (createPatches2 npx npy) :=
  fun i hi j hj => ⟨⟨i + j * npx, i, j⟩, mem_createPatches2.mpr ⟨hi, hj, rfl⟩, rfl, rfl⟩

theorem nodup_createPatches2 (npx npy : Nat) : (createPatches2 npx npy).Nodup := by
  unfold createPatches2
  rw [List.nodup_flatMap]
  refine ⟨fun j _ => ?_, ?_⟩
  · refine List.Nodup.map (fun a b h => ?_) List.nodup_range
    simp at h; exact h
  · refine List.Nodup.pairwise_of_forall_ne List.nodup_range ?_
    intro a _ b _ hab
    simp only [Function.onFun, List.disjoint_left, List.mem_map]
    rintro p ⟨i, _, rfl⟩ ⟨i', _, h⟩
    simp at h
    exact hab h.2.2.symm

/-! ## 3D -/

/-- `ps` is (part of) a grid of `npx × npy × npz` patches -/
structure Grid3 (npx npy npz : Nat) (ps : List P3) : Prop where
  bound : ∀ p ∈ ps, p.ix < npx ∧ p.iy < npy ∧ p.iz < npz
  coordInj : ∀ p ∈ ps, ∀ q ∈ ps, p.ix = q.ix → p.iy = q.iy → p.iz = q.iz → p = q
  indexInj : ∀ p ∈ ps, ∀ q ∈ ps, p.index = q.index → p = q

/-- every grid point carries a patch -/
def Full3 (npx npy npz : Nat) (ps : List P3) : Prop :=
  ∀ i < npx, ∀ j < npy, ∀ k < npz, ∃ p ∈ ps, p.ix = i ∧ p.iy = j ∧ p.iz = k

theorem mapGet3_some {npx npy npz : Nat} {ps : List P3} (hg : Grid3 npx npy npz ps) (i j l k : Nat) :
    mapGet3 ps i j l = some k ↔ ∃ q ∈ ps, q.ix = i ∧ q.iy = j ∧ q.iz = l ∧ q.index = k := by
  unfold mapGet3
  rw [Option.map_eq_some_iff]
  constructor
  · rintro ⟨q, hq, hk⟩
    have h1 := List.mem_of_find?_eq_some hq
    have h2 := List.find?_some hq
    simp at h2
    exact ⟨q, by simpa using h1, h2.1, h2.2.1, h2.2.2, hk⟩
  · rintro ⟨q, hq, rfl, rfl, rfl, hk⟩
    cases hf : ps.reverse.find? (fun p => decide ((p.ix : Int) = (q.ix : Int) ∧
        (p.iy : Int) = (q.iy : Int) ∧ (p.iz : Int) = (q.iz : Int))) with
    | none =>
      rw [List.find?_eq_none] at hf
      have := hf q (by simpa using hq)
      simp at this
    | some r =>
      have h1 := List.mem_of_find?_eq_some hf
      have h2 := List.find?_some hf
      simp at h2
      have : r = q := hg.coordInj r (by simpa using h1) q hq h2.1 h2.2.1 h2.2.2
      exact ⟨r, rfl, this ▸ hk⟩

theorem mapGet3_none {ps : List P3} (i j l : Nat) :
    mapGet3 ps i j l = none ↔ ∀ q ∈ ps, ¬ (q.ix = i ∧ q.iy = j ∧ q.iz = l) := by
  unfold mapGet3
  rw [Option.map_eq_none_iff, List.find?_eq_none]
  simp

theorem neighborIndex3_some {npx npy npz : Nat} {bx by' bz : AxisBC} (hx : bx.Paired) (hy : by'.Paired)
    (hz : bz.Paired)
    {ps : List P3} (hg : Grid3 npx npy npz ps) {p : P3} (hp : p ∈ ps) (b : B3) (k : Nat) :
    neighborIndex3 npx npy npz bx by' bz ps p b = some (k : Int) ↔
      ∃ q ∈ ps, q.index = k ∧ Adj npx bx p.ix b.offset.1 q.ix ∧
        Adj npy by' p.iy b.offset.2.1 q.iy ∧ Adj npz bz p.iz b.offset.2.2 q.iz := by
  obtain ⟨hbx, hby, hbz⟩ := hg.bound p hp
  obtain ⟨hox, hoy, hoz⟩ := B3.offset_small b
  unfold neighborIndex3
  cases hwx : wrapCoord npx bx (p.ix + b.offset.1) with
  | none =>
    simp only [Option.some.injEq]
    constructor
    · intro h; omega
    · rintro ⟨q, _, _, ha, _⟩
      have := (wrapCoord_iff hx hbx hox q.ix).mpr ha
      rw [hwx] at this; simp at this
  | some ni =>
    obtain ⟨a1, a2⟩ := wrapCoord_bounds (by omega) hwx
    obtain ⟨ni, rfl⟩ := Int.eq_ofNat_of_zero_le a1
    have hax := (wrapCoord_iff hx hbx hox ni).mp hwx
    cases hwy : wrapCoord npy by' (p.iy + b.offset.2.1) with
    | none =>
      simp only [Option.some.injEq]
      constructor
      · intro h; omega
      · rintro ⟨q, _, _, _, ha, _⟩
        have := (wrapCoord_iff hy hby hoy q.iy).mpr ha
        rw [hwy] at this; simp at this
    | some nj =>
      obtain ⟨b1, b2⟩ := wrapCoord_bounds (by omega) hwy
      obtain ⟨nj, rfl⟩ := Int.eq_ofNat_of_zero_le b1
      have hay := (wrapCoord_iff hy hby hoy nj).mp hwy
      cases hwz : wrapCoord npz bz (p.iz + b.offset.2.2) with
      | none =>
        simp only [Option.some.injEq]
        constructor
        · intro h; omega
        · rintro ⟨q, _, _, _, _, ha⟩
          have := (wrapCoord_iff hz hbz hoz q.iz).mpr ha
          rw [hwz] at this; simp at this
      | some nk =>
        obtain ⟨c1, c2⟩ := wrapCoord_bounds (by omega) hwz
        obtain ⟨nk, rfl⟩ := Int.eq_ofNat_of_zero_le c1
        have haz := (wrapCoord_iff hz hbz hoz nk).mp hwz
        simp only at *
        cases hm : mapGet3 ps ni nj nk with
        | none =>
          rw [mapGet3_none] at hm
          simp only
          constructor
          · intro h
            split at h
            · simp at h
            · simp at h; try omega
          · rintro ⟨q, hq, _, ha, ha', ha''⟩
            exact absurd ⟨ha.unique hax, ha'.unique hay, ha''.unique haz⟩ (hm q hq)
        | some k' =>
          obtain ⟨q, hq, e1, e2, e3, e4⟩ := (mapGet3_some hg ni nj nk k').mp hm
          simp only [Option.some.injEq]
          constructor
          · intro h
            have : k' = k := by exact_mod_cast h
            exact ⟨q, hq, by omega, e1 ▸ hax, e2 ▸ hay, e3 ▸ haz⟩
          · rintro ⟨r, hr, hk, ha, ha', ha''⟩
            have : r = q := hg.coordInj r hr q hq ((ha.unique hax).trans e1.symm)
              ((ha'.unique hay).trans e2.symm) ((ha''.unique haz).trans e3.symm)
            subst this
            exact_mod_cast (e4.symm.trans hk)

theorem neighborIndex3_total {npx npy npz : Nat} {bx by' bz : AxisBC}
    {ps : List P3} (hg : Grid3 npx npy npz ps) (hf : Full3 npx npy npz ps) {p : P3} (hp : p ∈ ps)
    (b : B3) :
    neighborIndex3 npx npy npz bx by' bz ps p b = some (-1) ∨
      ∃ q ∈ ps, neighborIndex3 npx npy npz bx by' bz ps p b = some (q.index : Int) := by
  obtain ⟨hbx, hby, hbz⟩ := hg.bound p hp
  unfold neighborIndex3
  cases hwx : wrapCoord npx bx (p.ix + b.offset.1) with
  | none => exact Or.inl rfl
  | some ni =>
    obtain ⟨a1, a2⟩ := wrapCoord_bounds (by omega) hwx
    obtain ⟨ni, rfl⟩ := Int.eq_ofNat_of_zero_le a1
    cases hwy : wrapCoord npy by' (p.iy + b.offset.2.1) with
    | none => exact Or.inl rfl
    | some nj =>
      obtain ⟨b1, b2⟩ := wrapCoord_bounds (by omega) hwy
      obtain ⟨nj, rfl⟩ := Int.eq_ofNat_of_zero_le b1
      cases hwz : wrapCoord npz bz (p.iz + b.offset.2.2) with
      | none => exact Or.inl rfl
      | some nk =>
        obtain ⟨c1, c2⟩ := wrapCoord_bounds (by omega) hwz
        obtain ⟨nk, rfl⟩ := Int.eq_ofNat_of_zero_le c1
        simp only at *
        obtain ⟨q, hq, e1, e2, e3⟩ := hf ni (by omega) nj (by omega) nk (by omega)
        have : mapGet3 ps ni nj nk = some q.index :=
          (mapGet3_some hg ni nj nk _).mpr ⟨q, hq, e1, e2, e3, rfl⟩
        right
        exact ⟨q, hq, by simp only [this]⟩

theorem neighborIpatch3_some {npx npy npz : Nat} {bx by' bz : AxisBC} (hx : bx.Paired)
    (hy : by'.Paired) (hz : bz.Paired)
    {ps loc : List P3} (hg : Grid3 npx npy npz ps) (hsub : ∀ p ∈ loc, p ∈ ps) (hnd : loc.Nodup)
    (i t : Nat) (b : B3) :
    neighborIpatch3 npx npy npz bx by' bz ps loc i b = some t ↔
      ∃ p q, loc[i]? = some p ∧ loc[t]? = some q ∧ Adj npx bx p.ix b.offset.1 q.ix ∧
        Adj npy by' p.iy b.offset.2.1 q.iy ∧ Adj npz bz p.iz b.offset.2.2 q.iz := by
  have hndI : (loc.map P3.index).Nodup := by
    rw [List.nodup_map_iff_inj_on hnd]
    intro a ha c hc h
    exact hg.indexInj a (hsub a ha) c (hsub c hc) h
  unfold neighborIpatch3
  cases hp : loc[i]? with
  | none => simp
  | some p =>
    have hpm : p ∈ ps := hsub p (List.mem_of_getElem? hp)
    simp only [Option.some.injEq, exists_and_left]
    cases hn : neighborIndex3 npx npy npz bx by' bz ps p b with
    | none =>
      simp only [reduceCtorEq, false_iff]
      rintro ⟨p', rfl, q, hq, hax, hay, haz⟩
      have := (neighborIndex3_some hx hy hz hg hpm b q.index).mpr
        ⟨q, hsub q (List.mem_of_getElem? hq), rfl, hax, hay, haz⟩
      rw [hn] at this; simp at this
    | some idx =>
      simp only
      by_cases h0 : 0 ≤ idx
      · obtain ⟨k, rfl⟩ := Int.eq_ofNat_of_zero_le h0
        rw [ipatchOf_eq hndI]
        obtain ⟨q, hq, e1, e2, e3, e4⟩ := (neighborIndex3_some hx hy hz hg hpm b k).mp hn
        rw [List.getElem?_map, Option.map_eq_some_iff]
        constructor
        · rintro ⟨r, hr, hk⟩
          have : r = q := hg.indexInj r (hsub r (List.mem_of_getElem? hr)) q hq (hk.trans e1.symm)
          subst this
          exact ⟨p, rfl, r, hr, e2, e3, e4⟩
        · rintro ⟨p', rfl, r, hr, a1, a2, a3⟩
          refine ⟨r, hr, ?_⟩
          have : r = q := hg.coordInj r (hsub r (List.mem_of_getElem? hr)) q hq
            (a1.unique e2) (a2.unique e3) (a3.unique e4)
          rw [this, e1]
      · have : ipatchOf (loc.map P3.index) idx = -1 := by
          unfold ipatchOf; rw [if_neg h0]
        rw [this]
        constructor
        · intro h; simp at h
        · rintro ⟨p', rfl, q, hq, hax, hay, haz⟩
          have := (neighborIndex3_some hx hy hz hg hpm b q.index).mpr
            ⟨q, hsub q (List.mem_of_getElem? hq), rfl, hax, hay, haz⟩
          rw [hn] at this; simp at this; omega

theorem neighborIpatch3_sym {npx npy npz : Nat} {bx by' bz : AxisBC} (hx : bx.Paired)
    (hy : by'.Paired) (hz : bz.Paired)
    {ps loc : List P3} (hg : Grid3 npx npy npz ps) (hsub : ∀ p ∈ loc, p ∈ ps) (hnd : loc.Nodup)
    {i t : Nat} {b : B3} (h : neighborIpatch3 npx npy npz bx by' bz ps loc i b = some t) :
    neighborIpatch3 npx npy npz bx by' bz ps loc t b.opp = some i := by
  obtain ⟨p, q, hp, hq, a1, a2, a3⟩ := (neighborIpatch3_some hx hy hz hg hsub hnd i t b).mp h
  have hb := hg.bound p (hsub p (List.mem_of_getElem? hp))
  rw [neighborIpatch3_some hx hy hz hg hsub hnd, B3.offset_opp]
  exact ⟨q, p, hq, hp, a1.symm hb.1, a2.symm hb.2.1, a3.symm hb.2.2⟩

theorem mem_createPatches3 {npx npy npz : Nat} {p : P3} :
    p ∈ createPatches3 npx npy npz ↔ p.ix < npx ∧ p.iy < npy ∧ p.iz < npz ∧
      p.index = p.ix + p.iy * npx + p.iz * npx * npy := by
  unfold createPatches3
  simp only [List.mem_flatMap, List.mem_range, List.mem_map]
  constructor
  · rintro ⟨k, hk, j, hj, i, hi, rfl⟩; exact ⟨hi, hj, hk, rfl⟩
  · rintro ⟨h1, h2, h3, h4⟩
    exact ⟨p.iz, h3, p.iy, h2, p.ix, h1, by rw [← h4]⟩

theorem grid_createPatches3 (npx npy npz : Nat) : Grid3 npx npy npz (createPatches3 npx npy npz) := by
  refine ⟨fun p hp => ?_, fun p hp q hq h1 h2 h3 => ?_, fun p hp q hq h => ?_⟩
  · have := mem_createPatches3.mp hp; exact ⟨this.1, this.2.1, this.2.2.1⟩
  · have a := mem_createPatches3.mp hp
    have b := mem_createPatches3.mp hq
    cases p; cases q; simp_all
  · have a := mem_createPatches3.mp hp
    have b := mem_createPatches3.mp hq
    rw [a.2.2.2, b.2.2.2] at h
    have e1 : p.ix + p.iy * npx + p.iz * npx * npy = p.ix + (p.iy + p.iz * npy) * npx := by ring
    have e2 : q.ix + q.iy * npx + q.iz * npx * npy = q.ix + (q.iy + q.iz * npy) * npx := by ring
    rw [e1, e2] at h
    have h1 := lin_inj a.1 b.1 h
    have h2 := lin_inj a.2.1 b.2.1 h1.2
    cases p; cases q; simp_all

theorem full_createPatches3 (npx npy npz : Nat) : Full3 npx npy npz (createPatches3 npx npy npz) :=
  fun i hi j hj k hk => ⟨⟨i + j * npx + k * npx * npy, i, j, k⟩,
    mem_createPatches3.mpr ⟨hi, hj, hk, rfl⟩, rfl, rfl, rfl⟩

theorem nodup_createPatches3 (npx npy npz : Nat) : (createPatches3 npx npy npz).Nodup := by
  unfold createPatches3
  rw [List.nodup_flatMap]
  refine ⟨fun k _ => ?_, ?_⟩
  · rw [List.nodup_flatMap]
    refine ⟨fun j _ => ?_, ?_⟩
    · refine List.Nodup.map (fun a b h => ?_) List.nodup_range
      simp at h; exact h
    · refine List.Nodup.pairwise_of_forall_ne List.nodup_range ?_
      intro a _ b _ hab
      simp only [Function.onFun, List.disjoint_left, List.mem_map]
      rintro p ⟨i, _, rfl⟩ ⟨i', _, h⟩
      simp at h
      exact hab h.2.2.symm
  · refine List.Nodup.pairwise_of_forall_ne List.nodup_range ?_
    intro a _ b _ hab
    simp only [Function.onFun, List.disjoint_left, List.mem_flatMap, List.mem_map]
    rintro p ⟨j, _, i, _, rfl⟩ ⟨j', _, i', _, h⟩
    simp at h
    exact hab h.2.2.2.symm

end Verif.Neighbors
