import Verif.Model.Collide
import Verif.Props.Pairing
import Verif.Props.Coulomb
import Verif.Props.Sort
import Mathlib.Algebra.BigOperators.Group.Finset.Basic
/-!
# C76 — the collision step of a run
-/
namespace Verif.Collide
open Verif.Pairing (Pair Living Shuffled involved involved1 involved2 share nLive)
open Verif.Coulomb (Consts Kind Part Params Draws V3 momentum energy Consistent)
open Verif.SortProps (InColumn bucketNo2 bucketNo3)

/-! ## specification -/

/-- the living slots of the first `ns` species -/
def living (A : Patch) (ns : Nat) : Finset (Nat × Nat) :=
  (Finset.range ns).biUnion fun s => ((Finset.range (A.n s)).filter fun i => A.dead s i = false).image (Prod.mk s)

/-- a quantity summed over all living particles, each counted with its weight -/
noncomputable def total (A : Patch) (ns : Nat) (st : Store) (f : Nat → Part → ℝ) : ℝ := ∑ k ∈ living A ns, (st k.1 k.2).w * f k.1 (st k.1 k.2)

/-- the random generator shuffles the indices of each bucket -/
def Shuffles (A : Patch) (sh : Nat × Nat → Nat → List Nat × List Nat) (cs : List (Nat × Nat)) : Prop :=
  ∀ q ∈ cs, ∀ b < A.nb q.1, Shuffled (A.bmin q.1 b) (A.bmax q.1 b) (sh q b).1 ∧ Shuffled (A.bmin q.2 b) (A.bmax q.2 b) (sh q b).2

/-- all species have the same number of buckets, and the buckets lie in the arrays -/
structure Fits (A : Patch) : Prop where
  size : ∀ s t, A.nb s = A.nb t
  bound : ∀ s b, b < A.nb s → A.bmax s b ≤ A.n s

/-- admissible constants, masses and random numbers -/
structure Good (E : Env) : Prop where
  c : 0 < E.K.c
  eps0 : 0 < E.K.eps0
  h : 0 < E.K.h
  mass : ∀ s, 0 < (E.kind s).m
  lnLambda : 0 ≤ E.lnLambda
  cellVol : 0 < E.cellVol
  dt : 0 ≤ E.dt
  draw : ∀ k, (0 ≤ (E.draw k).angleU ∧ (E.draw k).angleU < 1) ∧ 0 ≤ (E.draw k).selectU ∧ (E.draw k).selectU < 1

theorem mem_living {A : Patch} {ns s i : Nat} : (s, i) ∈ living A ns ↔ s < ns ∧ i < A.n s ∧ A.dead s i = false := by
  unfold living
  simp only [Finset.mem_biUnion, Finset.mem_range, Finset.mem_image, Finset.mem_filter, Prod.mk.injEq]
  constructor
  · rintro ⟨t, ht, j, ⟨hj, hd⟩, rfl, rfl⟩
    exact ⟨ht, hj, hd⟩
  · rintro ⟨hs, hi, hd⟩
    exact ⟨s, hs, i, ⟨hi, hd⟩, rfl, rfl⟩

/-! ## the list of collisions -/

theorem collect_spec {β γ : Type} (f : β → Option (List γ)) : ∀ (xs : List β), (∀ x ∈ xs, ∃ a, f x = some a) →
    ∃ r, collect f xs = some r ∧ (∀ y ∈ r, ∃ x ∈ xs, ∃ a, f x = some a ∧ y ∈ a) ∧ ∀ x ∈ xs, ∀ a, f x = some a → ∀ y ∈ a, y ∈ r
  | [], _ => ⟨[], rfl, by simp, by simp⟩
  | x :: xs, h => by
    obtain ⟨a, ha⟩ := h x (by simp)
    obtain ⟨r, hr, h1, h2⟩ := collect_spec f xs fun y hy => h y (by simp [hy])
    refine ⟨a ++ r, by rw [collect, ha, Option.bind_some, hr, Option.map_some], fun y hy => ?_, fun y hy b hb z hz => ?_⟩
    · rcases List.mem_append.mp hy with hy | hy
      · exact ⟨x, by simp, a, ha, hy⟩
      · obtain ⟨x', hx', q⟩ := h1 y hy
        exact ⟨x', by simp [hx'], q⟩
    · rcases List.mem_cons.mp hy with rfl | hy
      · rw [ha] at hb; cases hb
        exact List.mem_append.mpr (Or.inl hz)
      · exact List.mem_append.mpr (Or.inr (h2 y hy b hb z hz))

theorem intraPair_pos (L : List Nat) (i : Nat) : 0 < (Pairing.intraPair L i).wCorr ∧ 0 ≤ (Pairing.intraPair L i).dtCorr := by
  unfold Pairing.intraPair
  refine ⟨?_, by positivity⟩
  dsimp only
  split
  · norm_num
  · split <;> norm_num

theorem interW_pos {nS nC : Nat} (h0 : 0 < nC) (hle : nC ≤ nS) (i : Nat) : 0 < Pairing.interW nS nC i := by
  have : 0 < nS / nC := Nat.div_pos hle h0
  unfold Pairing.interW
  split <;> positivity

/-- the pairs of one bucket -/
theorem cellPairs_spec (A : Patch) (s1 s2 b : Nat) (i1 i2 : List Nat) (h1 : Shuffled (A.bmin s1 b) (A.bmax s1 b) i1)
    (h2 : Shuffled (A.bmin s2 b) (A.bmax s2 b) i2) :
    ∃ ps, cellPairs A s1 s2 b i1 i2 = some ps ∧ (∀ p ∈ ps, Living (A.dead s1) (A.bmin s1 b) (A.bmax s1 b) p.ip1 ∧
      Living (A.dead s2) (A.bmin s2 b) (A.bmax s2 b) p.ip2 ∧ (s1 = s2 → p.ip1 ≠ p.ip2) ∧ 0 < p.wCorr ∧ 0 ≤ p.dtCorr) ∧
      (∀ x y, Living (A.dead s1) (A.bmin s1 b) (A.bmax s1 b) x → Living (A.dead s2) (A.bmin s2 b) (A.bmax s2 b) y → (s1 = s2 → x ≠ y) →
        (∃ p ∈ ps, p.ip1 = x ∨ (s1 = s2 ∧ p.ip2 = x)) ∧ ∃ p ∈ ps, p.ip2 = y ∨ (s1 = s2 ∧ p.ip1 = y)) := by
  unfold cellPairs
  by_cases hs : s1 = s2
  · subst hs
    rw [if_pos rfl]
    obtain ⟨ps, e, q1, -, q3, -, -⟩ := Pairing.intra_pairs_partial (A.dead s1) (A.bmin s1 b) (A.bmax s1 b) i1 h1
    refine ⟨ps, e, fun p hp => ?_, fun x y hx hy hne => ?_⟩
    · obtain ⟨a1, a2, a3⟩ := q1 p hp
      rw [Pairing.intra_eq h1] at e
      cases e
      obtain ⟨i, -, rfl⟩ := List.mem_map.mp hp
      exact ⟨a1, a2, fun _ => a3, intraPair_pos _ _⟩
    · have h2l : 2 ≤ nLive (A.dead s1) (A.bmin s1 b) (A.bmax s1 b) := by
        rw [Pairing.nLive_eq]
        have hm : ∀ z, Living (A.dead s1) (A.bmin s1 b) (A.bmax s1 b) z →
            z ∈ (List.range' (A.bmin s1 b) (A.bmax s1 b - A.bmin s1 b)).filter fun i => !A.dead s1 i := by
          rintro z ⟨c1, c2, c3⟩
          rw [List.mem_filter, List.mem_range'_1, c3]
          exact ⟨by omega, rfl⟩
        have hsub : ([x, y] : List Nat).Subperm ((List.range' (A.bmin s1 b) (A.bmax s1 b - A.bmin s1 b)).filter fun i => !A.dead s1 i) := by
          apply List.Nodup.subperm
          · simp [hne rfl]
          · intro z hz
            simp only [List.mem_cons, List.not_mem_nil, or_false] at hz
            rcases hz with rfl | rfl
            · exact hm _ hx
            · exact hm _ hy
        simpa using hsub.length_le
      have hin : ∀ z, Living (A.dead s1) (A.bmin s1 b) (A.bmax s1 b) z → ∃ p ∈ ps, p.ip1 = z ∨ p.ip2 = z := by
        intro z hz
        obtain ⟨p, hp⟩ := List.exists_mem_of_ne_nil _ ((q3 h2l).2 z hz)
        unfold involved at hp
        rw [List.mem_filter] at hp
        exact ⟨p, hp.1, of_decide_eq_true hp.2⟩
      obtain ⟨p, hp, e1⟩ := hin x hx
      obtain ⟨p', hp', e1'⟩ := hin y hy
      exact ⟨⟨p, hp, e1.imp id fun h => ⟨rfl, h⟩⟩, p', hp', e1'.symm.imp id fun h => ⟨rfl, h⟩⟩
  · rw [if_neg hs]
    obtain ⟨ps, e, q1, q2, q3, q4⟩ := Pairing.inter_pairs_partial (A.dead s1) (A.dead s2) (A.bmin s1 b) (A.bmax s1 b) (A.bmin s2 b)
      (A.bmax s2 b) i1 i2 h1 h2
    have hpos : ∀ dead start stop z, Living dead start stop z → 0 < nLive dead start stop := by
      rintro dead start stop z ⟨c1, c2, c3⟩
      rw [Pairing.nLive_eq]
      apply List.length_pos_of_mem (a := z)
      rw [List.mem_filter, List.mem_range'_1, c3]
      exact ⟨by omega, rfl⟩
    refine ⟨ps, e, fun p hp => ?_, fun x y hx hy _ => ?_⟩
    · obtain ⟨a1, a2⟩ := q1 p hp
      refine ⟨a1, a2, fun h => absurd h hs, ?_⟩
      obtain ⟨g1, g2⟩ := Pairing.inter_eq (dead1 := A.dead s1) (dead2 := A.dead s2) h1 h2
      have p1 := hpos _ _ _ _ a1
      have p2 := hpos _ _ _ _ a2
      by_cases hle : nLive (A.dead s2) (A.bmin s2 b) (A.bmax s2 b) ≤ nLive (A.dead s1) (A.bmin s1 b) (A.bmax s1 b)
      · obtain ⟨LS, LC, eS, eC, e'⟩ := g1 (by omega) hle
        have l1 : nLive (A.dead s1) (A.bmin s1 b) (A.bmax s1 b) = LS.length := by rw [eS]; exact Pairing.nLive_shuffled h1
        have l2 : nLive (A.dead s2) (A.bmin s2 b) (A.bmax s2 b) = LC.length := by rw [eC]; exact Pairing.nLive_eq _ _ _
        rw [e'] at e; cases e
        obtain ⟨i, -, rfl⟩ := List.mem_map.mp hp
        exact ⟨interW_pos (by omega) (by omega) i, by positivity⟩
      · obtain ⟨LS, LC, eS, eC, e'⟩ := g2 (by omega) (by omega)
        have l1 : nLive (A.dead s2) (A.bmin s2 b) (A.bmax s2 b) = LS.length := by rw [eS]; exact Pairing.nLive_shuffled h2
        have l2 : nLive (A.dead s1) (A.bmin s1 b) (A.bmax s1 b) = LC.length := by rw [eC]; exact Pairing.nLive_eq _ _ _
        rw [e'] at e; cases e
        obtain ⟨i, -, rfl⟩ := List.mem_map.mp hp
        exact ⟨interW_pos (by omega) (by omega) i, by positivity⟩
    · have p1 := hpos _ _ _ _ hx
      have p2 := hpos _ _ _ _ hy
      have from1 : 1 ≤ (involved1 x ps).length → ∃ p ∈ ps, p.ip1 = x ∨ (s1 = s2 ∧ p.ip2 = x) := by
        intro h
        obtain ⟨p, hp⟩ := List.exists_mem_of_length_pos h
        unfold involved1 at hp
        rw [List.mem_filter] at hp
        exact ⟨p, hp.1, Or.inl (of_decide_eq_true hp.2)⟩
      have from2 : 1 ≤ (involved2 y ps).length → ∃ p ∈ ps, p.ip2 = y ∨ (s1 = s2 ∧ p.ip1 = y) := by
        intro h
        obtain ⟨p, hp⟩ := List.exists_mem_of_length_pos h
        unfold involved2 at hp
        rw [List.mem_filter] at hp
        exact ⟨p, hp.1, Or.inl (of_decide_eq_true hp.2)⟩
      by_cases hle : nLive (A.dead s2) (A.bmin s2 b) (A.bmax s2 b) ≤ nLive (A.dead s1) (A.bmin s1 b) (A.bmax s1 b)
      · obtain ⟨r1, r2⟩ := q3 p2 hle
        exact ⟨from1 (by rw [r1 x hx]), from2 (r2 y hy).1⟩
      · obtain ⟨r1, r2⟩ := q4 p1 (by omega)
        exact ⟨from1 (r2 x hx).1, from2 (by rw [r1 y hy])⟩

/-- the collisions of a step: the call runs through, both particles are living and in the bucket, and everyone who has a partner collides -/
theorem events_spec (A : Patch) (hA : Fits A) (sh : Nat × Nat → Nat → List Nat × List Nat) (cs : List (Nat × Nat)) (hsh : Shuffles A sh cs) :
    ∃ es, events A sh cs = some es ∧
      (∀ e ∈ es, (e.s1, e.s2) ∈ cs ∧ e.cell < A.nb e.s1 ∧ Living (A.dead e.s1) (A.bmin e.s1 e.cell) (A.bmax e.s1 e.cell) e.pair.ip1 ∧
        Living (A.dead e.s2) (A.bmin e.s2 e.cell) (A.bmax e.s2 e.cell) e.pair.ip2 ∧ (e.s1 = e.s2 → e.pair.ip1 ≠ e.pair.ip2) ∧
        0 < e.pair.wCorr ∧ 0 ≤ e.pair.dtCorr) ∧
      (∀ s t, (s, t) ∈ cs → ∀ b < A.nb s, ∀ x y, Living (A.dead s) (A.bmin s b) (A.bmax s b) x → Living (A.dead t) (A.bmin t b) (A.bmax t b) y →
        (s = t → x ≠ y) →
        (∃ e ∈ es, e.s1 = s ∧ e.s2 = t ∧ e.cell = b ∧ (e.pair.ip1 = x ∨ (s = t ∧ e.pair.ip2 = x))) ∧
        ∃ e ∈ es, e.s1 = s ∧ e.s2 = t ∧ e.cell = b ∧ (e.pair.ip2 = y ∨ (s = t ∧ e.pair.ip1 = y))) := by
  have key : ∀ q ∈ cs, ∃ r, pairEvents A sh q = some r ∧ (∀ e ∈ r, e.s1 = q.1 ∧ e.s2 = q.2 ∧ e.cell < A.nb q.1 ∧
      ∃ ps, cellPairs A q.1 q.2 e.cell (sh q e.cell).1 (sh q e.cell).2 = some ps ∧ e.pair ∈ ps) ∧
      ∀ b < A.nb q.1, ∀ ps, cellPairs A q.1 q.2 b (sh q b).1 (sh q b).2 = some ps → ∀ p ∈ ps, (⟨q.1, q.2, b, p⟩ : Event) ∈ r := by
    intro q hq
    have hq' := hsh q hq
    unfold pairEvents
    rw [if_neg (by rw [hA.size q.2 q.1]; exact lt_irrefl _)]
    obtain ⟨r, hr, h1, h2⟩ := collect_spec (fun b => (cellPairs A q.1 q.2 b (sh q b).1 (sh q b).2).map (List.map fun p => (⟨q.1, q.2, b, p⟩ : Event)))
      (List.range (A.nb q.1)) (fun b hb => by
        obtain ⟨ps, e, -⟩ := cellPairs_spec A q.1 q.2 b _ _ (hq' b (List.mem_range.mp hb)).1 (hq' b (List.mem_range.mp hb)).2
        exact ⟨_, by rw [e]; rfl⟩)
    refine ⟨r, hr, fun e he => ?_, fun b hb ps hps p hp => ?_⟩
    · obtain ⟨b, hb, a, ha, hea⟩ := h1 e he
      obtain ⟨ps, hps, rfl⟩ := Option.map_eq_some_iff.mp ha
      obtain ⟨p, hp, rfl⟩ := List.mem_map.mp hea
      exact ⟨rfl, rfl, List.mem_range.mp hb, ps, hps, hp⟩
    · exact h2 b (List.mem_range.mpr hb) _ (by rw [hps]; rfl) _ (List.mem_map.mpr ⟨p, hp, rfl⟩)
  obtain ⟨es, he, h1, h2⟩ := collect_spec (pairEvents A sh) cs fun q hq => ⟨_, (key q hq).choose_spec.1⟩
  refine ⟨es, he, fun e hee => ?_, fun s t hst b hb x y hx hy hne => ?_⟩
  · obtain ⟨q, hq, a, ha, hea⟩ := h1 e hee
    obtain ⟨r, hr, k1, -⟩ := key q hq
    rw [hr] at ha; cases ha
    obtain ⟨e1, e2, e3, ps, hps, hp⟩ := k1 e hea
    obtain ⟨ps', hps', g1, -⟩ := cellPairs_spec A q.1 q.2 e.cell _ _ (hsh q hq _ e3).1 (hsh q hq _ e3).2
    rw [hps] at hps'; cases hps'
    rw [e1, e2]
    exact ⟨hq, e3, g1 _ hp⟩
  · obtain ⟨r, hr, -, k2⟩ := key (s, t) hst
    obtain ⟨ps, hps, -, g2⟩ := cellPairs_spec A s t b _ _ (hsh _ hst b hb).1 (hsh _ hst b hb).2
    obtain ⟨⟨p, hp, c1⟩, p', hp', c2⟩ := g2 x y hx hy hne
    exact ⟨⟨_, h2 _ hst r hr _ (k2 b hb ps hps p hp), rfl, rfl, rfl, c1⟩, _, h2 _ hst r hr _ (k2 b hb ps hps p' hp'), rfl, rfl, rfl, c2⟩

/-! ## conservation -/

/-- a sum over a set changes in two places only -/
theorem sum_two {S : Finset (Nat × Nat)} {f g : Nat × Nat → ℝ} {a b : Nat × Nat} (ha : a ∈ S) (hb : b ∈ S) (hab : a ≠ b)
    (hrest : ∀ k, k ≠ a → k ≠ b → g k = f k) (h : g a + g b = f a + f b) : ∑ k ∈ S, g k = ∑ k ∈ S, f k := by
  have hb' : b ∈ S.erase a := Finset.mem_erase.mpr ⟨hab.symm, hb⟩
  rw [← Finset.add_sum_erase S g ha, ← Finset.add_sum_erase S f ha, ← Finset.add_sum_erase _ g hb', ← Finset.add_sum_erase _ f hb']
  have hr : ∑ k ∈ (S.erase a).erase b, g k = ∑ k ∈ (S.erase a).erase b, f k := by
    apply Finset.sum_congr rfl
    intro k hk
    rw [Finset.mem_erase, Finset.mem_erase] at hk
    exact hrest k hk.2.1 hk.1
  rw [hr]
  linarith

/-- what stays the same in every collision: weights, and everything about dead slots -/
structure Kept (A : Patch) (ns : Nat) (st st' : Store) : Prop where
  weight : ∀ s i, (st' s i).w = (st s i).w
  dead : ∀ s i, (s, i) ∉ living A ns → st' s i = st s i
  consistent : (∀ k ∈ living A ns, Consistent (st k.1 k.2)) → ∀ k ∈ living A ns, Consistent (st' k.1 k.2)

theorem kernel_w (K : Consts) (a b : Kind) (P : Params) (r : Draws) (x y : Part) :
    (Coulomb.kernel K a b P r x y).1.w = x.w ∧ (Coulomb.kernel K a b P r x y).2.w = y.w := by
  unfold Coulomb.kernel
  dsimp only
  split
  · exact ⟨rfl, rfl⟩
  · constructor
    · dsimp only; split <;> rfl
    · dsimp only; split <;> rfl

/-- one collision -/
theorem hit_spec (E : Env) (hE : Good E) (A : Patch) (ns : Nat) (w : ℝ) (hw : 0 < w) (e : Event) (k : Nat) (st : Store)
    (h1 : (e.s1, e.pair.ip1) ∈ living A ns) (h2 : (e.s2, e.pair.ip2) ∈ living A ns) (hne : e.s1 = e.s2 → e.pair.ip1 ≠ e.pair.ip2)
    (hwc : 0 < e.pair.wCorr) (hdt : 0 ≤ e.pair.dtCorr) (hc : ∀ k ∈ living A ns, Consistent (st k.1 k.2)) (hww : ∀ k ∈ living A ns, (st k.1 k.2).w = w) :
    Kept A ns st (hit E e (E.draw k) st) ∧
    (∀ g : V3 → ℝ, (g = V3.x ∨ g = V3.y ∨ g = V3.z) → total A ns (hit E e (E.draw k) st) (fun s p => g (momentum E.K (E.kind s) p)) =
      total A ns st fun s p => g (momentum E.K (E.kind s) p)) ∧
    total A ns (hit E e (E.draw k) st) (fun s p => energy E.K (E.kind s) p) = total A ns st fun s p => energy E.K (E.kind s) p := by
  have hadm : Coulomb.Admissible E.K (E.kind e.s1) (E.kind e.s2) (params E e) (E.draw k) :=
    ⟨hE.c, hE.eps0, hE.h, hE.mass _, hE.mass _, hE.lnLambda, by show (0 : ℝ) ≤ (e.pair.dtCorr : ℝ); exact_mod_cast hdt,
      by show (0 : ℝ) < (e.pair.wCorr : ℝ); exact_mod_cast hwc, hE.cellVol, hE.dt, (hE.draw k).1, (hE.draw k).2⟩
  have w1 := hww _ h1
  have w2 := hww _ h2
  have hcons := Coulomb.coulomb_conserves E.K _ _ _ _ hadm (st e.s1 e.pair.ip1) (st e.s2 e.pair.ip2) (hc _ h1) (hc _ h2) (w1.trans w2.symm) (by rw [w1]; exact hw)
  have hkw := kernel_w E.K (E.kind e.s1) (E.kind e.s2) (params E e) (E.draw k) (st e.s1 e.pair.ip1) (st e.s2 e.pair.ip2)
  dsimp only at hcons
  unfold hit
  dsimp only
  generalize Coulomb.kernel E.K (E.kind e.s1) (E.kind e.s2) (params E e) (E.draw k) (st e.s1 e.pair.ip1) (st e.s2 e.pair.ip2) = r at hcons hkw
  obtain ⟨⟨m1, m2, m3⟩, hen, c1, c2⟩ := hcons
  have hab : ((e.s1, e.pair.ip1) : Nat × Nat) ≠ (e.s2, e.pair.ip2) := by
    intro h
    rw [Prod.mk.injEq] at h
    exact hne h.1 h.2
  have vb : put (put st e.s1 e.pair.ip1 r.1) e.s2 e.pair.ip2 r.2 e.s2 e.pair.ip2 = r.2 := if_pos ⟨rfl, rfl⟩
  have va : put (put st e.s1 e.pair.ip1 r.1) e.s2 e.pair.ip2 r.2 e.s1 e.pair.ip1 = r.1 := by
    refine (if_neg fun h => hab ?_).trans (if_pos ⟨rfl, rfl⟩)
    rw [Prod.mk.injEq]; exact h
  have vo : ∀ s i, ((s, i) : Nat × Nat) ≠ (e.s1, e.pair.ip1) → ((s, i) : Nat × Nat) ≠ (e.s2, e.pair.ip2) →
      put (put st e.s1 e.pair.ip1 r.1) e.s2 e.pair.ip2 r.2 s i = st s i := by
    intro s i n1 n2
    refine (if_neg fun h => n2 ?_).trans (if_neg fun h => n1 ?_)
    · rw [Prod.mk.injEq]; exact h
    · rw [Prod.mk.injEq]; exact h
  generalize put (put st e.s1 e.pair.ip1 r.1) e.s2 e.pair.ip2 r.2 = st' at va vb vo
  have tot : ∀ f : Nat → Part → ℝ, f e.s1 r.1 + f e.s2 r.2 = f e.s1 (st e.s1 e.pair.ip1) + f e.s2 (st e.s2 e.pair.ip2) →
      total A ns st' f = total A ns st f := by
    intro f hf
    unfold total
    apply sum_two h1 h2 hab
    · rintro ⟨s, i⟩ n1 n2
      dsimp only
      rw [vo s i n1 n2]
    · dsimp only
      rw [va, vb, hkw.1, hkw.2]
      have w1' : (st e.s1 e.pair.ip1).w = w := w1
      have w2' : (st e.s2 e.pair.ip2).w = w := w2
      rw [w1', w2', ← mul_add, hf, mul_add]
  refine ⟨⟨fun s i => ?_, fun s i hd => ?_, fun _ k hk => ?_⟩, fun g hg => ?_, tot _ hen⟩
  · by_cases e1 : ((s, i) : Nat × Nat) = (e.s1, e.pair.ip1)
    · rw [Prod.mk.injEq] at e1; rw [e1.1, e1.2, va, hkw.1]
    · by_cases e2 : ((s, i) : Nat × Nat) = (e.s2, e.pair.ip2)
      · rw [Prod.mk.injEq] at e2; rw [e2.1, e2.2, vb, hkw.2]
      · rw [vo s i e1 e2]
  · exact vo s i (fun h => hd (h ▸ h1)) (fun h => hd (h ▸ h2))
  · by_cases e1 : k = (e.s1, e.pair.ip1)
    · rw [e1]; dsimp only; rw [va]; exact c1
    · by_cases e2 : k = (e.s2, e.pair.ip2)
      · rw [e2]; dsimp only; rw [vb]; exact c2
      · rw [vo k.1 k.2 e1 e2]; exact hc k hk
  · rcases hg with rfl | rfl | rfl
    · exact tot (fun s p => (momentum E.K (E.kind s) p).x) m1
    · exact tot (fun s p => (momentum E.K (E.kind s) p).y) m2
    · exact tot (fun s p => (momentum E.K (E.kind s) p).z) m3

/-- **C76 (conservation, partial).** In every patch, whatever species collide with each other, whatever the buckets, shuffles and random numbers: if all
living particles have the same weight, a collision step runs through and leaves the total momentum and the total energy of all living particles unchanged;
weights and dead slots are not touched, and `inv_gamma` belongs to the momentum of every living particle afterwards. Missing: unequal weights, where
the code conserves only the mean (C41). -/
theorem step_conserves_partial (E : Env) (hE : Good E) (A : Patch) (hA : Fits A) (ns : Nat) (sh : Nat × Nat → Nat → List Nat × List Nat)
    (cs : List (Nat × Nat)) (hcs : ∀ q ∈ cs, q.1 < ns ∧ q.2 < ns) (hsh : Shuffles A sh cs) (st : Store) (w : ℝ) (hw : 0 < w)
    (hc : ∀ k ∈ living A ns, Consistent (st k.1 k.2)) (hww : ∀ k ∈ living A ns, (st k.1 k.2).w = w) :
    ∃ st', call E A sh cs st = some st' ∧ Kept A ns st st' ∧
      total A ns st' (fun s p => (momentum E.K (E.kind s) p).x) = total A ns st (fun s p => (momentum E.K (E.kind s) p).x) ∧
      total A ns st' (fun s p => (momentum E.K (E.kind s) p).y) = total A ns st (fun s p => (momentum E.K (E.kind s) p).y) ∧
      total A ns st' (fun s p => (momentum E.K (E.kind s) p).z) = total A ns st (fun s p => (momentum E.K (E.kind s) p).z) ∧
      total A ns st' (fun s p => energy E.K (E.kind s) p) = total A ns st (fun s p => energy E.K (E.kind s) p) := by
  obtain ⟨es, he, h1, -⟩ := events_spec A hA sh cs hsh
  have main : ∀ (es : List Event) (k : Nat) (st : Store), (∀ e ∈ es, (e.s1, e.pair.ip1) ∈ living A ns ∧ (e.s2, e.pair.ip2) ∈ living A ns ∧
      (e.s1 = e.s2 → e.pair.ip1 ≠ e.pair.ip2) ∧ 0 < e.pair.wCorr ∧ 0 ≤ e.pair.dtCorr) → (∀ k ∈ living A ns, Consistent (st k.1 k.2)) →
      (∀ k ∈ living A ns, (st k.1 k.2).w = w) → Kept A ns st (run E k es st) ∧
      (∀ g : V3 → ℝ, (g = V3.x ∨ g = V3.y ∨ g = V3.z) → total A ns (run E k es st) (fun s p => g (momentum E.K (E.kind s) p)) =
        total A ns st fun s p => g (momentum E.K (E.kind s) p)) ∧
      total A ns (run E k es st) (fun s p => energy E.K (E.kind s) p) = total A ns st fun s p => energy E.K (E.kind s) p := by
    intro es
    induction es with
    | nil => intro k st _ hc _; exact ⟨⟨fun _ _ => rfl, fun _ _ _ => rfl, fun h => h⟩, fun _ _ => rfl, rfl⟩
    | cons e es ih =>
      intro k st hes hc hww
      obtain ⟨a1, a2, a3, a4, a5⟩ := hes e (by simp)
      obtain ⟨k1, m1, n1⟩ := hit_spec E hE A ns w hw e k st a1 a2 a3 a4 a5 hc hww
      obtain ⟨k2, m2, n2⟩ := ih (k + 1) (hit E e (E.draw k) st) (fun x hx => hes x (by simp [hx])) (k1.consistent hc)
        (fun x hx => (k1.weight _ _).trans (hww x hx))
      rw [run]
      exact ⟨⟨fun s i => (k2.weight s i).trans (k1.weight s i), fun s i hd => (k2.dead s i hd).trans (k1.dead s i hd),
        fun h => k2.consistent (k1.consistent h)⟩, fun g hg => (m2 g hg).trans (m1 g hg), n2.trans n1⟩
  obtain ⟨q1, q2, q3⟩ := main es 0 st (fun e hee => by
    obtain ⟨b1, b2, b3, b4, b5, b6, b7⟩ := h1 e hee
    have hb := hA.bound e.s1 e.cell b2
    have hb' := hA.bound e.s2 e.cell (by rw [hA.size e.s2 e.s1]; exact b2)
    exact ⟨mem_living.mpr ⟨(hcs _ b1).1, by have := b3.2.1; omega, b3.2.2⟩, mem_living.mpr ⟨(hcs _ b1).2, by have := b4.2.1; omega, b4.2.2⟩, b5, b6, b7⟩)
    hc hww
  exact ⟨run E 0 es st, by unfold call; rw [he]; rfl, q1, q2 _ (Or.inl rfl), q2 _ (Or.inr (Or.inl rfl)), q2 _ (Or.inr (Or.inr rfl)), q3⟩

/-! ## who collides with whom -/

/-- two slots take part in one of the collisions -/
def Collides (es : List Event) (s x t y : Nat) : Prop :=
  ∃ e ∈ es, (e.s1 = s ∧ e.pair.ip1 = x ∧ e.s2 = t ∧ e.pair.ip2 = y) ∨ (e.s1 = t ∧ e.pair.ip1 = y ∧ e.s2 = s ∧ e.pair.ip2 = x)

/-- if every living slot is in exactly one bucket, numbered by `no`, then exactly slots with the same number collide -/
theorem events_by_number {A : Patch} (hA : Fits A) {sh : Nat × Nat → Nat → List Nat × List Nat} {cs : List (Nat × Nat)} (hsh : Shuffles A sh cs)
    (no : Nat → Nat → Nat → Prop) (hno : ∀ s i, i < A.n s → A.dead s i = false → ∃ b < A.nb s, no s i b ∧ A.bmin s b ≤ i ∧ i < A.bmax s b ∧
      ∀ b' < A.nb s, A.bmin s b' ≤ i → i < A.bmax s b' → b' = b) (huniq : ∀ s i b b', no s i b → no s i b' → b = b') :
    ∃ es, events A sh cs = some es ∧
      (∀ e ∈ es, (e.s1, e.s2) ∈ cs ∧ no e.s1 e.pair.ip1 e.cell ∧ no e.s2 e.pair.ip2 e.cell ∧
        (e.pair.ip1 < A.n e.s1 ∧ A.dead e.s1 e.pair.ip1 = false) ∧ e.pair.ip2 < A.n e.s2 ∧ A.dead e.s2 e.pair.ip2 = false) ∧
      (∀ s t, (s, t) ∈ cs → ∀ x y b, x < A.n s → A.dead s x = false → y < A.n t → A.dead t y = false → no s x b → no t y b → (s = t → x ≠ y) →
        (∃ y', Collides es s x t y') ∧ ∃ x', Collides es s x' t y) := by
  obtain ⟨es, he, h1, h2⟩ := events_spec A hA sh cs hsh
  refine ⟨es, he, fun e hee => ?_, fun s t hst x y b hx hdx hy hdy hbx hby hne => ?_⟩
  · obtain ⟨b1, b2, b3, b4, -⟩ := h1 e hee
    have hb := hA.bound e.s1 e.cell b2
    have b2' : e.cell < A.nb e.s2 := by rw [hA.size e.s2 e.s1]; exact b2
    have hb' := hA.bound e.s2 e.cell b2'
    have l1 : e.pair.ip1 < A.n e.s1 := lt_of_lt_of_le b3.2.1 hb
    have l2 : e.pair.ip2 < A.n e.s2 := lt_of_lt_of_le b4.2.1 hb'
    obtain ⟨c, -, n1, -, -, u1⟩ := hno e.s1 e.pair.ip1 l1 b3.2.2
    obtain ⟨c', -, n2, -, -, u2⟩ := hno e.s2 e.pair.ip2 l2 b4.2.2
    have q1 := u1 e.cell b2 b3.1 b3.2.1
    have q2 := u2 e.cell b2' b4.1 b4.2.1
    exact ⟨b1, q1 ▸ n1, q2 ▸ n2, ⟨l1, b3.2.2⟩, l2, b4.2.2⟩
  · obtain ⟨c, hc, n1, l1, l2, -⟩ := hno s x hx hdx
    obtain ⟨c', hc', n2, l1', l2', -⟩ := hno t y hy hdy
    have e1 := huniq _ _ _ _ n1 hbx
    have e2 := huniq _ _ _ _ n2 hby
    subst e1
    subst e2
    obtain ⟨⟨e, hee, f1, f2, -, f3⟩, e', hee', f1', f2', -, f3'⟩ := h2 s t hst c' hc x y ⟨l1, l2, hdx⟩ ⟨l1', l2', hdy⟩ hne
    constructor
    · rcases f3 with f3 | ⟨hst', f3⟩
      · exact ⟨_, e, hee, Or.inl ⟨f1, f3, f2, rfl⟩⟩
      · subst hst'
        exact ⟨_, e, hee, Or.inr ⟨f1, rfl, f2, f3⟩⟩
    · rcases f3' with f3' | ⟨hst', f3'⟩
      · exact ⟨_, e', hee', Or.inl ⟨f1', rfl, f2', f3'⟩⟩
      · subst hst'
        exact ⟨_, e', hee', Or.inr ⟨f1', f3', f2', rfl⟩⟩

theorem partition_bound {bmin bmax : Nat → Nat} {nbin n : Nat} (h : SortProps.BoundsPartition bmin bmax nbin n) {b : Nat} (hb : b < nbin) : bmax b ≤ n := by
  obtain ⟨-, h2, h3, h4⟩ := h
  have : ∀ d, b + d < nbin → bmax b ≤ bmax (b + d) := by
    intro d
    induction d with
    | zero => intro _; exact le_rfl
    | succ d ih =>
      intro hd
      have i1 := ih (by omega)
      have i2 := h3 (b + d) (by omega)
      have i3 := h4 (b + (d + 1)) hd
      rw [show b + (d + 1) = b + d + 1 by omega] at i3 ⊢
      omega
  have := this (nbin - 1 - b) (by omega)
  rw [show b + (nbin - 1 - b) = nbin - 1 by omega, h2] at this
  exact this

theorem partition_cover {bmin bmax : Nat → Nat} {nbin n : Nat} (hn : 0 < nbin) (h : SortProps.BoundsPartition bmin bmax nbin n) {x : Nat} (hx : x < n) :
    ∃ b < nbin, bmin b ≤ x ∧ x < bmax b := by
  obtain ⟨b, ⟨hb, hl⟩, -⟩ := Pairing.one_cell (fun _ => false) bmin bmax nbin n hn h.1 h.2.1 h.2.2.1 h.2.2.2 x hx rfl
  exact ⟨b, hb, hl.1, hl.2.1⟩

theorem column_unique {x0 dx x : ℚ} (hdx : 0 < dx) {i j : Nat} (hi : InColumn x0 dx i x) (hj : InColumn x0 dx j x) : i = j := by
  have aux : ∀ {i j : Nat}, InColumn x0 dx i x → InColumn x0 dx j x → ¬ i < j := by
    intro i j hi hj hlt
    have h1 := hi.2
    have h2 := hj.1
    have h3 : ((i : ℚ) + 1) * dx ≤ j * dx := by
      apply mul_le_mul_of_nonneg_right _ hdx.le
      exact_mod_cast hlt
    linarith
  rcases lt_trichotomy i j with h | h | h
  · exact absurd h (aux hi hj)
  · exact h
  · exact absurd h (aux hj hi)

/-- the place of a slot in a sorted patch: it lies in cell `(ix, iy)` of the grid of spacing `dx`, `dy` -/
def InCell2 {α : Type} (toQ : α → ℚ) (dx dy x0 y0 : ℚ) (Q : Sort.Patch α) (i ix iy : Nat) : Prop :=
  InColumn x0 dx ix (toQ (Q.attr 0 i)) ∧ InColumn y0 dy iy (toQ (Q.attr 1 i))

/-- the place of a slot in three dimensions -/
def InCell3 {α : Type} (toQ : α → ℚ) (dx dy dz x0 y0 z0 : ℚ) (Q : Sort.Patch α) (i ix iy iz : Nat) : Prop :=
  InColumn x0 dx ix (toQ (Q.attr 0 i)) ∧ InColumn y0 dy iy (toQ (Q.attr 1 i)) ∧ InColumn z0 dz iz (toQ (Q.attr 2 i))

theorem fits2 {α : Type} (toQ : α → ℚ) (B : Buckets) (hx : 0 < B.nx) (hy : 0 < B.ny) (mom : Nat → List (ℚ × ℚ)) (x0 y0 : ℚ) (nattrs : Nat)
    (P : Nat → Sort.Patch α) (S : Nat → Sort.Scratch α) : Fits (sorted2 toQ B mom x0 y0 nattrs P S) := by
  refine ⟨fun _ _ => rfl, fun s b hb => ?_⟩
  obtain ⟨⟨σ, h1, -⟩, h2⟩ := SortProps.sort2_permutes toQ (reverse B (mom s)) B.nx B.ny hx hy B.dx B.dy x0 y0 nattrs (P s) (S s)
  have := partition_bound h2 hb
  rw [← h1] at this
  exact this

theorem fits3 {α : Type} (toQ : α → ℚ) (B : Buckets) (hx : 0 < B.nx) (hy : 0 < B.ny) (hz : 0 < B.nz) (mom : Nat → List (ℚ × ℚ)) (x0 y0 z0 : ℚ) (nattrs : Nat)
    (P : Nat → Sort.Patch α) (S : Nat → Sort.Scratch α) : Fits (sorted3 toQ B mom x0 y0 z0 nattrs P S) := by
  refine ⟨fun _ _ => rfl, fun s b hb => ?_⟩
  obtain ⟨⟨σ, h1, -⟩, h2⟩ := SortProps.sort3_permutes toQ (reverse B (mom s)) B.nx B.ny B.nz hx hy hz B.dx B.dy B.dz x0 y0 z0 nattrs (P s) (S s)
  have := partition_bound h2 hb
  rw [← h1] at this
  exact this

/-- the buckets of a sorted patch by cell, whatever the numbering -/
theorem buckets2 {α : Type} (toQ : α → ℚ) (B : Buckets) (hx : 0 < B.nx) (hy : 0 < B.ny) (hdx : 0 < B.dx) (hdy : 0 < B.dy) (mom : Nat → List (ℚ × ℚ))
    (x0 y0 : ℚ) (nattrs : Nat) (hn : 2 ≤ nattrs) (P : Nat → Sort.Patch α) (S : Nat → Sort.Scratch α)
    (hin : ∀ s i, i < (P s).n → (P s).dead i = false → ∃ ix < B.nx, ∃ iy < B.ny, InCell2 toQ B.dx B.dy x0 y0 (P s) i ix iy) (s i : Nat) :
    let Q := (Sort.sort2 toQ (reverse B (mom s)) B.nx B.ny B.dx B.dy x0 y0 nattrs (P s) (S s)).patch
    let A := sorted2 toQ B mom x0 y0 nattrs P S
    i < A.n s → A.dead s i = false → ∃ ix < B.nx, ∃ iy < B.ny, InCell2 toQ B.dx B.dy x0 y0 Q i ix iy ∧
      ∀ b < B.nx * B.ny, (A.bmin s b ≤ i ∧ i < A.bmax s b) ↔ b = bucketNo2 (reverse B (mom s)) B.nx B.ny ix iy := by
  intro Q A hi hd
  obtain ⟨⟨σ, h1, h2⟩, -⟩ := SortProps.sort2_permutes toQ (reverse B (mom s)) B.nx B.ny hx hy B.dx B.dy x0 y0 nattrs (P s) (S s)
  have hi' : i < (P s).n := h1 ▸ hi
  obtain ⟨k, hk⟩ := σ.surjective ⟨i, hi'⟩
  obtain ⟨a1, a2⟩ := h2 k
  rw [show ((σ k : Fin (P s).n) : Nat) = i from congrArg Fin.val hk] at a1 a2
  obtain ⟨ix, hix, iy, hiy, c1, c2⟩ := hin s k k.2 (a2.symm.trans hd)
  have c1' : InColumn x0 B.dx ix (toQ (Q.attr 0 i)) := by
    have := a1 0 (by omega)
    show InColumn x0 B.dx ix (toQ ((Sort.sort2 toQ (reverse B (mom s)) B.nx B.ny B.dx B.dy x0 y0 nattrs (P s) (S s)).patch.attr 0 i))
    rw [this]; exact c1
  have c2' : InColumn y0 B.dy iy (toQ (Q.attr 1 i)) := by
    have := a1 1 (by omega)
    show InColumn y0 B.dy iy (toQ ((Sort.sort2 toQ (reverse B (mom s)) B.nx B.ny B.dx B.dy x0 y0 nattrs (P s) (S s)).patch.attr 1 i))
    rw [this]; exact c2
  exact ⟨ix, hix, iy, hiy, ⟨c1', c2'⟩, SortProps.sort2_bounds toQ (reverse B (mom s)) B.nx B.ny B.dx B.dy x0 y0 hdx hdy nattrs hn (P s) (S s) i hi hd ix iy hix hiy
    c1' c2'⟩

/-- the same in three dimensions -/
theorem buckets3 {α : Type} (toQ : α → ℚ) (B : Buckets) (hx : 0 < B.nx) (hy : 0 < B.ny) (hz : 0 < B.nz) (hdx : 0 < B.dx) (hdy : 0 < B.dy) (hdz : 0 < B.dz)
    (mom : Nat → List (ℚ × ℚ)) (x0 y0 z0 : ℚ) (nattrs : Nat) (hn : 3 ≤ nattrs) (P : Nat → Sort.Patch α) (S : Nat → Sort.Scratch α)
    (hin : ∀ s i, i < (P s).n → (P s).dead i = false → ∃ ix < B.nx, ∃ iy < B.ny, ∃ iz < B.nz, InCell3 toQ B.dx B.dy B.dz x0 y0 z0 (P s) i ix iy iz)
    (s i : Nat) :
    let Q := (Sort.sort3 toQ (reverse B (mom s)) B.nx B.ny B.nz B.dx B.dy B.dz x0 y0 z0 nattrs (P s) (S s)).patch
    let A := sorted3 toQ B mom x0 y0 z0 nattrs P S
    i < A.n s → A.dead s i = false → ∃ ix < B.nx, ∃ iy < B.ny, ∃ iz < B.nz, InCell3 toQ B.dx B.dy B.dz x0 y0 z0 Q i ix iy iz ∧
      ∀ b < B.nx * B.ny * B.nz, (A.bmin s b ≤ i ∧ i < A.bmax s b) ↔ b = bucketNo3 (reverse B (mom s)) B.nx B.ny B.nz ix iy iz := by
  intro Q A hi hd
  obtain ⟨⟨σ, h1, h2⟩, -⟩ := SortProps.sort3_permutes toQ (reverse B (mom s)) B.nx B.ny B.nz hx hy hz B.dx B.dy B.dz x0 y0 z0 nattrs (P s) (S s)
  have hi' : i < (P s).n := h1 ▸ hi
  obtain ⟨k, hk⟩ := σ.surjective ⟨i, hi'⟩
  obtain ⟨a1, a2⟩ := h2 k
  rw [show ((σ k : Fin (P s).n) : Nat) = i from congrArg Fin.val hk] at a1 a2
  obtain ⟨ix, hix, iy, hiy, iz, hiz, c1, c2, c3⟩ := hin s k k.2 (a2.symm.trans hd)
  have c1' : InColumn x0 B.dx ix (toQ (Q.attr 0 i)) := by
    have := a1 0 (by omega)
    show InColumn x0 B.dx ix (toQ ((Sort.sort3 toQ (reverse B (mom s)) B.nx B.ny B.nz B.dx B.dy B.dz x0 y0 z0 nattrs (P s) (S s)).patch.attr 0 i))
    rw [this]; exact c1
  have c2' : InColumn y0 B.dy iy (toQ (Q.attr 1 i)) := by
    have := a1 1 (by omega)
    show InColumn y0 B.dy iy (toQ ((Sort.sort3 toQ (reverse B (mom s)) B.nx B.ny B.nz B.dx B.dy B.dz x0 y0 z0 nattrs (P s) (S s)).patch.attr 1 i))
    rw [this]; exact c2
  have c3' : InColumn z0 B.dz iz (toQ (Q.attr 2 i)) := by
    have := a1 2 (by omega)
    show InColumn z0 B.dz iz (toQ ((Sort.sort3 toQ (reverse B (mom s)) B.nx B.ny B.nz B.dx B.dy B.dz x0 y0 z0 nattrs (P s) (S s)).patch.attr 2 i))
    rw [this]; exact c3
  exact ⟨ix, hix, iy, hiy, iz, hiz, ⟨c1', c2', c3'⟩, SortProps.sort3_bounds toQ (reverse B (mom s)) B.nx B.ny B.nz B.dx B.dy B.dz x0 y0 z0 hdx hdy hdz nattrs hn
    (P s) (S s) i hi hd ix iy iz hix hiy hiz c1' c2' c3'⟩

theorem no2_inj {nx ny ix iy jx jy : Nat} (hi : iy < ny) (hj : jy < ny) (h : bucketNo2 false nx ny ix iy = bucketNo2 false nx ny jx jy) :
    ix = jx ∧ iy = jy := by
  unfold bucketNo2 at h
  rw [if_neg (by simp), if_neg (by simp)] at h
  have hpos : 0 < ny := by omega
  have h1 : ix = jx := by
    have := congrArg (· / ny) h
    simp only [Nat.mul_comm _ ny, Nat.mul_add_div hpos, Nat.div_eq_of_lt hi, Nat.div_eq_of_lt hj] at this
    omega
  subst h1
  exact ⟨rfl, by omega⟩

/-- **C76 (same cell, 2D).** If collisions were registered before the start (one bucket per cell) and patches have more than one row of cells: after the sort,
the collision step runs through; two particles collide only if they are in the same cell and their species were registered to collide; and every living
particle that shares its cell with a particle it could collide with does collide. -/
theorem same_cell2 {α : Type} (toQ : α → ℚ) (nx ny : Nat) (hx : 0 < nx) (hy : 1 < ny) (dx dy Ly : ℚ) (hdx : 0 < dx) (hdy : 0 < dy)
    (mom : Nat → List (ℚ × ℚ)) (x0 y0 : ℚ) (nattrs : Nat) (hn : 2 ≤ nattrs) (P : Nat → Sort.Patch α) (S : Nat → Sort.Scratch α)
    (hin : ∀ s i, i < (P s).n → (P s).dead i = false → ∃ ix < nx, ∃ iy < ny, InCell2 toQ dx dy x0 y0 (P s) i ix iy)
    (sh : Nat × Nat → Nat → List Nat × List Nat) (cs : List (Nat × Nat)) :
    let B := sorter true nx ny 1 dx dy 1 Ly 1
    let A := sorted2 toQ B mom x0 y0 nattrs P S
    let Q := fun s => (Sort.sort2 toQ (reverse B (mom s)) nx ny dx dy x0 y0 nattrs (P s) (S s)).patch
    Shuffles A sh cs → ∃ es, events A sh cs = some es ∧
      (∀ e ∈ es, (e.s1, e.s2) ∈ cs ∧ ∃ ix iy, InCell2 toQ dx dy x0 y0 (Q e.s1) e.pair.ip1 ix iy ∧ InCell2 toQ dx dy x0 y0 (Q e.s2) e.pair.ip2 ix iy) ∧
      (∀ s t, (s, t) ∈ cs → ∀ x y ix iy, x < (Q s).n → (Q s).dead x = false → y < (Q t).n → (Q t).dead y = false →
        InCell2 toQ dx dy x0 y0 (Q s) x ix iy → InCell2 toQ dx dy x0 y0 (Q t) y ix iy → (s = t → x ≠ y) →
        (∃ y', Collides es s x t y') ∧ ∃ x', Collides es s x' t y) := by
  intro B A Q hsh
  have hrev : ∀ s, reverse B (mom s) = false := fun s => if_neg fun h => absurd h.1 (show ny ≠ 1 by omega)
  have hb := buckets2 toQ B hx (show 0 < ny by omega) hdx hdy mom x0 y0 nattrs hn P S hin
  have hfit : Fits A := fits2 toQ B hx (show 0 < ny by omega) mom x0 y0 nattrs P S
  have hlt : ∀ ix iy, ix < nx → iy < ny → bucketNo2 false nx ny ix iy < nx * ny := by
    intro ix iy h1 h2
    unfold bucketNo2
    rw [if_neg (by simp)]
    nlinarith
  obtain ⟨es, he, g1, g2⟩ := events_by_number hfit hsh
    (fun s i b => ∃ ix < nx, ∃ iy < ny, InCell2 toQ dx dy x0 y0 (Q s) i ix iy ∧ b = bucketNo2 false nx ny ix iy)
    (fun s i hi hd => by
      obtain ⟨ix, hix, iy, hiy, hc, hbb⟩ := hb s i hi hd
      rw [hrev] at hbb
      have hl := hlt ix iy hix hiy
      refine ⟨_, hl, ⟨ix, hix, iy, hiy, hc, rfl⟩, ((hbb _ hl).mpr rfl).1, ((hbb _ hl).mpr rfl).2, fun b' hb' q1 q2 => (hbb b' hb').mp ⟨q1, q2⟩⟩)
    (fun s i b b' hbb hbb' => by
      obtain ⟨ix, _, iy, _, ⟨c1, c2⟩, rfl⟩ := hbb
      obtain ⟨jx, _, jy, _, ⟨d1, d2⟩, rfl⟩ := hbb'
      rw [column_unique hdx c1 d1, column_unique hdy c2 d2])
  refine ⟨es, he, fun e hee => ?_, fun s t hst x y ix iy hxl hxd hyl hyd hcx hcy hne => ?_⟩
  · obtain ⟨q1, ⟨ix, _, iy, hiy, c, e1⟩, ⟨jx, _, jy, hjy, d, e2⟩, -⟩ := g1 e hee
    obtain ⟨rfl, rfl⟩ := no2_inj hiy hjy (e1.symm.trans e2)
    exact ⟨q1, ix, iy, c, d⟩
  · obtain ⟨jx, hjx, jy, hjy, d, -⟩ := hb s x hxl hxd
    have r1 := column_unique hdx hcx.1 d.1
    have r2 := column_unique hdy hcx.2 d.2
    subst r1
    subst r2
    exact g2 s t hst x y _ hxl hxd hyl hyd ⟨ix, hjx, iy, hjy, hcx, rfl⟩ ⟨ix, hjx, iy, hjy, hcy, rfl⟩ hne

/-- **C76 (same cell, 3D)** -/
theorem same_cell3 {α : Type} (toQ : α → ℚ) (nx ny nz : Nat) (hx : 0 < nx) (hy : 0 < ny) (hz : 0 < nz) (hyz : ny ≠ 1 ∨ nz ≠ 1) (dx dy dz Ly Lz : ℚ)
    (hdx : 0 < dx) (hdy : 0 < dy) (hdz : 0 < dz) (mom : Nat → List (ℚ × ℚ)) (x0 y0 z0 : ℚ) (nattrs : Nat) (hn : 3 ≤ nattrs) (P : Nat → Sort.Patch α)
    (S : Nat → Sort.Scratch α)
    (hin : ∀ s i, i < (P s).n → (P s).dead i = false → ∃ ix < nx, ∃ iy < ny, ∃ iz < nz, InCell3 toQ dx dy dz x0 y0 z0 (P s) i ix iy iz)
    (sh : Nat × Nat → Nat → List Nat × List Nat) (cs : List (Nat × Nat)) :
    let B := sorter true nx ny nz dx dy dz Ly Lz
    let A := sorted3 toQ B mom x0 y0 z0 nattrs P S
    let Q := fun s => (Sort.sort3 toQ (reverse B (mom s)) nx ny nz dx dy dz x0 y0 z0 nattrs (P s) (S s)).patch
    Shuffles A sh cs → ∃ es, events A sh cs = some es ∧
      (∀ e ∈ es, (e.s1, e.s2) ∈ cs ∧ ∃ ix iy iz, InCell3 toQ dx dy dz x0 y0 z0 (Q e.s1) e.pair.ip1 ix iy iz ∧
        InCell3 toQ dx dy dz x0 y0 z0 (Q e.s2) e.pair.ip2 ix iy iz) ∧
      (∀ s t, (s, t) ∈ cs → ∀ x y ix iy iz, x < (Q s).n → (Q s).dead x = false → y < (Q t).n → (Q t).dead y = false →
        InCell3 toQ dx dy dz x0 y0 z0 (Q s) x ix iy iz → InCell3 toQ dx dy dz x0 y0 z0 (Q t) y ix iy iz → (s = t → x ≠ y) →
        (∃ y', Collides es s x t y') ∧ ∃ x', Collides es s x' t y) := by
  intro B A Q hsh
  have hrev : ∀ s, reverse B (mom s) = false := fun s => if_neg fun h => hyz.elim (fun q => q h.1) fun q => q h.2
  have hb := buckets3 toQ B hx hy hz hdx hdy hdz mom x0 y0 z0 nattrs hn P S hin
  have hfit : Fits A := fits3 toQ B hx hy hz mom x0 y0 z0 nattrs P S
  have hlt2 : ∀ ix iy, ix < nx → iy < ny → ix * ny + iy < nx * ny := by
    intro ix iy h1 h2
    nlinarith
  have hlt : ∀ ix iy iz, ix < nx → iy < ny → iz < nz → bucketNo3 false nx ny nz ix iy iz < nx * ny * nz := by
    intro ix iy iz h1 h2 h3
    have := hlt2 ix iy h1 h2
    unfold bucketNo3
    rw [if_neg (by simp)]
    nlinarith
  have hinj : ∀ ix iy iz jx jy jz, iy < ny → jy < ny → iz < nz → jz < nz → bucketNo3 false nx ny nz ix iy iz = bucketNo3 false nx ny nz jx jy jz →
      ix = jx ∧ iy = jy ∧ iz = jz := by
    intro ix iy iz jx jy jz h1 h2 h3 h4 h
    have h' : bucketNo2 false (nx * ny) nz (ix * ny + iy) iz = bucketNo2 false (nx * ny) nz (jx * ny + jy) jz := h
    obtain ⟨a, rfl⟩ := no2_inj h3 h4 h'
    have a' : bucketNo2 false nx ny ix iy = bucketNo2 false nx ny jx jy := a
    obtain ⟨rfl, rfl⟩ := no2_inj h1 h2 a'
    exact ⟨rfl, rfl, rfl⟩
  obtain ⟨es, he, g1, g2⟩ := events_by_number hfit hsh
    (fun s i b => ∃ ix < nx, ∃ iy < ny, ∃ iz < nz, InCell3 toQ dx dy dz x0 y0 z0 (Q s) i ix iy iz ∧ b = bucketNo3 false nx ny nz ix iy iz)
    (fun s i hi hd => by
      obtain ⟨ix, hix, iy, hiy, iz, hiz, hc, hbb⟩ := hb s i hi hd
      rw [hrev] at hbb
      have hl := hlt ix iy iz hix hiy hiz
      refine ⟨_, hl, ⟨ix, hix, iy, hiy, iz, hiz, hc, rfl⟩, ((hbb _ hl).mpr rfl).1, ((hbb _ hl).mpr rfl).2, fun b' hb' q1 q2 => (hbb b' hb').mp ⟨q1, q2⟩⟩)
    (fun s i b b' hbb hbb' => by
      obtain ⟨ix, _, iy, _, iz, _, ⟨c1, c2, c3⟩, rfl⟩ := hbb
      obtain ⟨jx, _, jy, _, jz, _, ⟨d1, d2, d3⟩, rfl⟩ := hbb'
      rw [column_unique hdx c1 d1, column_unique hdy c2 d2, column_unique hdz c3 d3])
  refine ⟨es, he, fun e hee => ?_, fun s t hst x y ix iy iz hxl hxd hyl hyd hcx hcy hne => ?_⟩
  · obtain ⟨q1, ⟨ix, _, iy, hiy, iz, hiz, c, e1⟩, ⟨jx, _, jy, hjy, jz, hjz, d, e2⟩, -⟩ := g1 e hee
    obtain ⟨rfl, rfl, rfl⟩ := hinj _ _ _ _ _ _ hiy hjy hiz hjz (e1.symm.trans e2)
    exact ⟨q1, ix, iy, iz, c, d⟩
  · obtain ⟨jx, hjx, jy, hjy, jz, hjz, d, -⟩ := hb s x hxl hxd
    have r1 := column_unique hdx hcx.1 d.1
    have r2 := column_unique hdy hcx.2.1 d.2.1
    have r3 := column_unique hdz hcx.2.2 d.2.2
    subst r1
    subst r2
    subst r3
    exact g2 s t hst x y _ hxl hxd hyl hyd ⟨ix, hjx, iy, hjy, iz, hjz, hcx, rfl⟩ ⟨ix, hjx, iy, hjy, iz, hjz, hcy, rfl⟩ hne

/-! ## set-up -/

/-- the groups of the last `add_collision` of a history -/
def lastGroups (ops : List Op) : List (List Nat) := ops.foldl (fun g o => match o with | .collide h => h | .init => g) []

/-- every species that is named was added -/
def Known (ns : Nat) (ops : List Op) : Prop := ∀ g, Op.collide g ∈ ops → ∀ x ∈ g, ∀ i ∈ x, i < ns

theorem op_collide (ns : Nat) (s : Setup) (g : List (List Nat)) : op ns s (.collide g) =
    if g.all fun x => x.all fun i => i < ns then
      some { s with groups := g, collision := if s.ready then initCollision g else s.collision }
    else none := rfl

theorem setup_append (ns : Nat) (a b : List Op) : setup ns (a ++ b) = (setup ns a).bind fun s => b.foldlM (op ns) s := by
  unfold setup
  rw [List.foldlM_append]
  rfl

theorem setup_some (ns : Nat) (ops : List Op) (h : Known ns ops) : ∃ s, setup ns ops = some s ∧ s.groups = lastGroups ops ∧
    (s.ready = true ↔ Op.init ∈ ops) ∧ s.collision = if Op.init ∈ ops then initCollision (lastGroups ops) else none := by
  induction ops using List.reverseRecOn with
  | nil => exact ⟨_, rfl, rfl, by simp, by simp⟩
  | append_singleton ops o ih =>
    obtain ⟨s, h1, h2, h3, h4⟩ := ih fun g hg => h g (by simp [hg])
    rw [setup_append, h1, Option.bind_some]
    have hl : lastGroups (ops ++ [o]) = match o with | .collide g => g | .init => lastGroups ops := by
      unfold lastGroups
      rw [List.foldl_append]
      cases o <;> rfl
    cases o with
    | collide g =>
      have hg : (g.all fun x => x.all fun i => decide (i < ns)) = true := by
        rw [List.all_eq_true]
        intro x hx
        rw [List.all_eq_true]
        intro i hi
        exact decide_eq_true (h g (by simp) x hx i hi)
      refine ⟨{ s with groups := g, collision := if s.ready then initCollision g else s.collision }, ?_, hl.symm, ?_, ?_⟩
      · show (op ns s (.collide g)).bind _ = _
        rw [op_collide, if_pos hg]
        rfl
      · simpa using h3
      · rw [hl]
        dsimp only
        by_cases hr : Op.init ∈ ops
        · rw [if_pos (h3.mpr hr), if_pos (by simp [hr])]
        · rw [if_neg (by rw [h3]; exact hr), if_neg (by simp [hr]), h4, if_neg hr]
    | init =>
      refine ⟨{ s with ready := true, cells := s.groups ≠ [], collision := initCollision s.groups }, rfl, by rw [hl]; exact h2, by simp, ?_⟩
      rw [hl, if_pos (by simp)]
      dsimp only
      rw [h2]

theorem cells_stay (ns : Nat) : ∀ (post : List Op) (s s' : Setup), (∀ o ∈ post, o ≠ .init) → post.foldlM (op ns) s = some s' → s'.cells = s.cells
  | [], s, s', _, h => by cases h; rfl
  | o :: post, s, s', hp, h => by
    cases o with
    | init => exact absurd rfl (hp .init (by simp))
    | collide g =>
      have h' : (op ns s (.collide g)).bind (fun t => post.foldlM (op ns) t) = some s' := h
      rw [op_collide] at h'
      by_cases hg : (g.all fun x => x.all fun i => decide (i < ns)) = true
      · rw [if_pos hg, Option.bind_some] at h'
        have := cells_stay ns post _ s' (fun o ho => hp o (by simp [ho])) h'
        exact this
      · rw [if_neg hg] at h'; cases h'

/-- **C76 (set-up).** Naming a species that was not added is refused. Otherwise, after the start, exactly the groups of the last call collide, whenever it
came; and there is a bucket for every cell exactly if groups had been registered when the simulation was (last) started. -/
theorem setup_spec (ns : Nat) (pre post : List Op) (hpost : ∀ o ∈ post, o ≠ .init) (hk : Known ns (pre ++ .init :: post)) :
    ∃ s, setup ns (pre ++ .init :: post) = some s ∧ s.collision = initCollision (lastGroups (pre ++ .init :: post)) ∧
      (s.cells = true ↔ lastGroups pre ≠ []) := by
  obtain ⟨s, h1, -, -, h4⟩ := setup_some ns _ hk
  refine ⟨s, h1, by rw [h4, if_pos (by simp)], ?_⟩
  obtain ⟨t, t1, t2, -, -⟩ := setup_some ns pre fun g hg => hk g (by simp [hg])
  rw [setup_append, t1, Option.bind_some] at h1
  have h1' : post.foldlM (op ns) { t with ready := true, cells := t.groups ≠ [], collision := initCollision t.groups } = some s := h1
  rw [cells_stay ns post _ s hpost h1', t2]
  simp

theorem setup_refuses (ns : Nat) (pre post : List Op) (g : List (List Nat)) (hg : ∃ x ∈ g, ∃ i ∈ x, ns ≤ i) (hk : Known ns pre) :
    setup ns (pre ++ .collide g :: post) = none := by
  obtain ⟨t, t1, -, -, -⟩ := setup_some ns pre hk
  rw [setup_append, t1, Option.bind_some]
  show (op ns t (.collide g)).bind _ = _
  rw [op_collide, if_neg]
  · rfl
  · rw [List.all_eq_true]
    intro h
    obtain ⟨x, hx, i, hi, hle⟩ := hg
    have := h x hx
    rw [List.all_eq_true] at this
    have := of_decide_eq_true (this i hi)
    omega

/-- empty scratch arrays -/
def blank : Sort.Scratch ℚ := ⟨fun _ => 0, fun _ => 0, fun _ => 0, fun _ => 0, fun _ => 0, fun _ => 0, fun _ => 0, fun _ => false⟩

/-- two particles of one species, in the first and in the last row of a patch -/
def exRows (ny : Nat) (dx dy : ℚ) : Nat → Sort.Patch ℚ :=
  fun _ => ⟨2, fun a i => if a = 0 then dx / 2 else if i = 0 then dy / 2 else (ny - 1) * dy + dy / 2, fun _ => false⟩

/-- shuffles that leave the order -/
def noShuffle (A : Patch) : Nat × Nat → Nat → List Nat × List Nat :=
  fun q b => (List.range' (A.bmin q.1 b) (A.bmax q.1 b - A.bmin q.1 b), List.range' (A.bmin q.2 b) (A.bmax q.2 b - A.bmin q.2 b))

/-- **C76 is not met** if collisions are registered after the start, which the documentation allows: in a domain of any size, particles of different rows of
cells of a patch collide. -/
theorem late_rows_fails (nx ny : Nat) (hx : 0 < nx) (hy : 1 < ny) (dx dy Ly : ℚ) (hdx : 0 < dx) (hdy : 0 < dy) (hL : ny * dy ≤ Ly) :
    ∃ s, setup 1 [.init, .collide [[0, 0]]] = some s ∧ s.collision = some [[0, 0]] ∧
      let B := sorter s.cells nx ny 1 dx dy 1 Ly 1
      let P := exRows ny dx dy
      let A := sorted2 id B (fun _ => []) 0 0 2 P fun _ => blank
      let Q := (Sort.sort2 id (reverse B []) B.nx B.ny B.dx B.dy 0 0 2 (P 0) blank).patch
      (∀ i < 2, ∃ ix < nx, ∃ iy < ny, InCell2 id dx dy 0 0 (P 0) i ix iy) ∧
      ∃ es, events A (noShuffle A) (Pairing.collisions [[0, 0]]) = some es ∧
        ∃ e ∈ es, ¬ ∃ ix iy, InCell2 id dx dy 0 0 Q e.pair.ip1 ix iy ∧ InCell2 id dx dy 0 0 Q e.pair.ip2 ix iy := by
  refine ⟨⟨[[0, 0]], true, false, some [[0, 0]]⟩, by decide, rfl, ?_⟩
  intro B P A Q
  have hny : (1 : ℚ) < ny := by exact_mod_cast hy
  have hrow0 : InColumn 0 dy 0 (dy / 2) := by unfold InColumn; push_cast; constructor <;> linarith
  have hrow1 : InColumn 0 dy (ny - 1) ((ny - 1) * dy + dy / 2) := by
    unfold InColumn
    rw [Nat.cast_sub hy.le]
    push_cast
    constructor <;> linarith
  have hcol : InColumn 0 dx 0 (dx / 2) := by unfold InColumn; push_cast; constructor <;> linarith
  have hLy : 0 < Ly := by nlinarith
  have hcells : ∀ i < 2, ∃ ix < nx, ∃ iy < ny, InCell2 id dx dy 0 0 (P 0) i ix iy := by
    intro i hi
    by_cases h0 : i = 0
    · subst h0; exact ⟨0, hx, 0, by omega, hcol, hrow0⟩
    · refine ⟨0, hx, ny - 1, by omega, hcol, ?_⟩
      show InColumn 0 dy (ny - 1) (id (if (1 : Nat) = 0 then dx / 2 else if i = 0 then dy / 2 else (ny - 1) * dy + dy / 2))
      rw [if_neg (by decide), if_neg h0]
      exact hrow1
  refine ⟨hcells, ?_⟩
  have hP : ∀ s i, (InCell2 id dx Ly 0 0 (P s) i 0 0) := by
    intro s i
    refine ⟨hcol, ?_⟩
    show InColumn 0 Ly 0 (id (if (1 : Nat) = 0 then dx / 2 else if i = 0 then dy / 2 else (ny - 1) * dy + dy / 2))
    rw [if_neg (by decide)]
    unfold InColumn
    simp only [id]
    split <;> push_cast <;> constructor <;> nlinarith
  have hb := buckets2 id B hx (show 0 < 1 by decide) hdx hLy (fun _ => []) 0 0 2 le_rfl P (fun _ => blank)
    (fun s i _ _ => ⟨0, hx, 0, Nat.one_pos, hP s i⟩)
  have hfit : Fits A := fits2 id B hx (show 0 < 1 by decide) (fun _ => []) 0 0 2 P fun _ => blank
  obtain ⟨⟨σ, s1, s2⟩, hpart⟩ := SortProps.sort2_permutes id (reverse B []) B.nx B.ny hx (show 0 < 1 by decide) B.dx B.dy 0 0 2 (P 0) blank
  have hdead : ∀ i < 2, A.dead 0 i = false := by
    intro i hi
    obtain ⟨k, hk⟩ := σ.surjective ⟨i, hi⟩
    have := (s2 k).2
    rw [show ((σ k : Fin (P 0).n) : Nat) = i from congrArg Fin.val hk] at this
    exact this
  have hn : A.n 0 = 2 := s1
  have hsh : Shuffles A (noShuffle A) (Pairing.collisions [[0, 0]]) := fun q _ b _ => ⟨List.Perm.refl _, List.Perm.refl _⟩
  obtain ⟨es, he, g1, g2⟩ := events_spec A hfit (noShuffle A) _ hsh
  refine ⟨es, he, ?_⟩
  have hmem : (0, 0) ∈ Pairing.collisions [[0, 0]] := by decide
  have hlive : ∀ i < 2, Living (A.dead 0) (A.bmin 0 0) (A.bmax 0 0) i := by
    intro i hi
    obtain ⟨ix, hix, iy, hiy, hc, hbb⟩ := hb 0 i (by rw [hn]; exact hi) (hdead i hi)
    have hiy0 : iy = 0 := by
      have : iy < 1 := hiy
      omega
    have hix0 : ix = 0 := by
      obtain ⟨k, hk⟩ := σ.surjective ⟨i, hi⟩
      have h0 := (s2 k).1 0 (by norm_num)
      rw [show ((σ k : Fin (P 0).n) : Nat) = i from congrArg Fin.val hk] at h0
      have h1 : InColumn 0 dx ix (id ((Sort.sort2 id (reverse B []) B.nx B.ny B.dx B.dy 0 0 2 (P 0) blank).patch.attr 0 i)) := hc.1
      rw [h0] at h1
      exact column_unique hdx h1 hcol
    subst hiy0
    subst hix0
    have hrev : reverse B [] = false := by simp [reverse]
    have := (hbb 0 (by show 0 < nx * 1; omega)).mpr (by rw [hrev]; rfl)
    exact ⟨this.1, this.2, hdead i hi⟩
  obtain ⟨⟨e, hee, f1, f2, f3, f4⟩, -⟩ := g2 0 0 hmem 0 (by show 0 < nx * 1; omega) 0 1 (hlive 0 (by decide)) (hlive 1 (by decide)) (fun _ => by decide)
  refine ⟨e, hee, ?_⟩
  obtain ⟨-, b2, b3, b4, b5, -⟩ := g1 e hee
  have hne : e.pair.ip1 ≠ e.pair.ip2 := b5 (f1.trans f2.symm)
  rw [f1] at b2 b3
  rw [f2, f3] at b4
  have hbd := hfit.bound 0 0 (by rw [← f3]; exact b2)
  rw [f3] at b3
  have l1 : e.pair.ip1 < 2 := by have := b3.2.1; omega
  have l2 : e.pair.ip2 < 2 := by have := b4.2.1; omega
  rintro ⟨ix, iy, c1, c2⟩
  have row : ∀ i < 2, ∃ k : Fin 2, ((σ k : Fin (P 0).n) : Nat) = i ∧ Q.attr 1 i = (if (k : Nat) = 0 then dy / 2 else (ny - 1) * dy + dy / 2) := by
    intro i hi
    obtain ⟨k, hk⟩ := σ.surjective ⟨i, hi⟩
    have h1 := (s2 k).1 1 (by norm_num)
    rw [show ((σ k : Fin (P 0).n) : Nat) = i from congrArg Fin.val hk] at h1
    exact ⟨k, congrArg Fin.val hk, h1⟩
  obtain ⟨k1, q1, v1⟩ := row _ l1
  obtain ⟨k2, q2, v2⟩ := row _ l2
  have hk : k1 ≠ k2 := by
    rintro rfl
    exact hne (q1.symm.trans q2)
  have r1 : InColumn 0 dy iy (Q.attr 1 e.pair.ip1) := c1.2
  have r2 : InColumn 0 dy iy (Q.attr 1 e.pair.ip2) := c2.2
  rw [v1] at r1
  rw [v2] at r2
  have hk' : (k1 : Nat) ≠ k2 := fun h => hk (Fin.ext h)
  have b1 := k1.2
  have b2' := k2.2
  by_cases h0 : (k1 : Nat) = 0
  · rw [if_pos h0] at r1
    rw [if_neg (by omega)] at r2
    have := column_unique hdy r1 hrow0
    have := column_unique hdy r2 hrow1
    omega
  · rw [if_neg h0] at r1
    rw [if_pos (by omega)] at r2
    have := column_unique hdy r1 hrow1
    have := column_unique hdy r2 hrow0
    omega

/-- one particle of each of two species, in the first and in the last column of a patch -/
def exEnds (nx : Nat) (dx dy : ℚ) : Nat → Sort.Patch ℚ :=
  fun s => ⟨1, fun a _ => if a = 0 then (if s = 0 then dx / 2 else (nx - 1) * dx + dx / 2) else dy / 2, fun _ => false⟩

/-- **C76 is not met** if collisions are registered after the start: if two species drift against each other, particles of one collide with particles of the other
at the mirrored place of the patch. -/
theorem late_mirrored_fails (nx ny : Nat) (hx : 1 < nx) (hy : 0 < ny) (dx dy Ly : ℚ) (hdx : 0 < dx) (hdy : 0 < dy) (hL : ny * dy ≤ Ly) :
    ∃ s, setup 2 [.init, .collide [[0, 1]]] = some s ∧ s.collision = some [[0, 1]] ∧
      let B := sorter s.cells nx ny 1 dx dy 1 Ly 1
      let A := sorted2 id B (fun s => if s = 0 then [(1, 1)] else [(1, -1)]) 0 0 2 (exEnds nx dx dy) fun _ => blank
      InCell2 id dx dy 0 0 (exEnds nx dx dy 0) 0 0 0 ∧ InCell2 id dx dy 0 0 (exEnds nx dx dy 1) 0 (nx - 1) 0 ∧
      ∃ es, events A (noShuffle A) (Pairing.collisions [[0, 1]]) = some es ∧ Collides es 0 0 1 0 := by
  refine ⟨⟨[[0, 1]], true, false, some [[0, 1]]⟩, by decide, rfl, ?_⟩
  intro B A
  have hnx : (1 : ℚ) < nx := by exact_mod_cast hx
  have hny : (1 : ℚ) ≤ ny := by exact_mod_cast hy
  have hrow : InColumn 0 dy 0 (dy / 2) := by unfold InColumn; push_cast; constructor <;> linarith
  have hcol0 : InColumn 0 dx 0 (dx / 2) := by unfold InColumn; push_cast; constructor <;> linarith
  have hcol1 : InColumn 0 dx (nx - 1) ((nx - 1) * dx + dx / 2) := by
    unfold InColumn
    rw [Nat.cast_sub hx.le]
    push_cast
    constructor <;> linarith
  have hLy : 0 < Ly := by nlinarith
  have hrowL : InColumn 0 Ly 0 (dy / 2) := by unfold InColumn; push_cast; constructor <;> nlinarith
  have hcol : ∀ s, InColumn 0 dx (if s = 0 then 0 else nx - 1) (if s = 0 then dx / 2 else (nx - 1) * dx + dx / 2) := by
    intro s
    by_cases h : s = 0
    · rw [if_pos h, if_pos h]; exact hcol0
    · rw [if_neg h, if_neg h]; exact hcol1
  refine ⟨⟨hcol 0, hrow⟩, ⟨hcol 1, hrow⟩, ?_⟩
  have hb := buckets2 id B (show 0 < nx by omega) (show 0 < 1 by decide) hdx hLy (fun s => if s = 0 then [(1, 1)] else [(1, -1)]) 0 0 2 le_rfl (exEnds nx dx dy)
    (fun _ => blank) (fun s i _ _ => ⟨if s = 0 then 0 else nx - 1, by show (if s = 0 then 0 else nx - 1) < nx; split <;> omega, 0, Nat.one_pos, hcol s, hrowL⟩)
  have hfit : Fits A := fits2 id B (show 0 < nx by omega) (show 0 < 1 by decide) _ 0 0 2 (exEnds nx dx dy) fun _ => blank
  have hsh : Shuffles A (noShuffle A) (Pairing.collisions [[0, 1]]) := fun q _ b _ => ⟨List.Perm.refl _, List.Perm.refl _⟩
  have hmem : (0, 1) ∈ Pairing.collisions [[0, 1]] := by decide
  obtain ⟨es, he, g1, g2⟩ := events_spec A hfit (noShuffle A) _ hsh
  refine ⟨es, he, ?_⟩
  have hlive : ∀ s, s = 0 ∨ s = 1 → A.n s = 1 ∧ Living (A.dead s) (A.bmin s 0) (A.bmax s 0) 0 := by
    intro s hs
    obtain ⟨⟨σ, s1, s2⟩, -⟩ := SortProps.sort2_permutes id (reverse B (if s = 0 then [(1, 1)] else [(1, -1)])) B.nx B.ny (show 0 < nx by omega)
      (show 0 < 1 by decide) B.dx B.dy 0 0 2 (exEnds nx dx dy s) blank
    have hk : ∀ k : Fin (exEnds nx dx dy s).n, (k : Nat) = 0 := fun k => by have : (k : Nat) < 1 := k.2; omega
    have hz := s2 ⟨0, Nat.one_pos⟩
    rw [hk] at hz
    have hd : A.dead s 0 = false := hz.2
    have hn : A.n s = 1 := s1
    obtain ⟨ix, hix, iy, hiy, hc, hbb⟩ := hb s 0 (by rw [hn]; exact Nat.one_pos) hd
    have hiy0 : iy = 0 := by
      have : iy < 1 := hiy
      omega
    have h0 := hz.1 0 (by norm_num)
    have h1 : InColumn 0 dx ix (id ((Sort.sort2 id (reverse B (if s = 0 then [(1, 1)] else [(1, -1)])) B.nx B.ny B.dx B.dy 0 0 2 (exEnds nx dx dy s) blank).patch.attr 0 0)) := hc.1
    rw [h0] at h1
    have hixv := column_unique hdx h1 (hcol s)
    subst hiy0
    refine ⟨hn, ?_⟩
    have hbno : 0 = bucketNo2 (reverse B (if s = 0 then [(1, 1)] else [(1, -1)])) B.nx B.ny ix 0 := by
      rcases hs with rfl | rfl
      · rw [if_pos rfl] at hixv ⊢
        have : reverse B [(1, 1)] = false := by
          show (if (1 : Nat) = 1 ∧ (1 : Nat) = 1 then decide _ else false) = false
          rw [if_pos ⟨rfl, rfl⟩]
          norm_num
        rw [this, hixv]
        simp [bucketNo2]
      · rw [if_neg (by decide)] at hixv ⊢
        have : reverse B [(1, -1)] = true := by
          show (if (1 : Nat) = 1 ∧ (1 : Nat) = 1 then decide _ else false) = true
          rw [if_pos ⟨rfl, rfl⟩]
          norm_num
        rw [this, hixv]
        show 0 = (if true = true then nx - 1 - (nx - 1) else nx - 1) * 1 + 0
        simp
    have := (hbb 0 (by show 0 < nx * 1; omega)).mpr hbno
    exact ⟨this.1, this.2, hd⟩
  obtain ⟨n0, l0⟩ := hlive 0 (Or.inl rfl)
  obtain ⟨n1, l1⟩ := hlive 1 (Or.inr rfl)
  obtain ⟨⟨e, hee, f1, f2, f3, f4⟩, -⟩ := g2 0 1 hmem 0 (by show 0 < nx * 1; omega) 0 0 l0 l1 (fun h => by cases h)
  obtain ⟨-, b2, -, b4, -⟩ := g1 e hee
  have hbd := hfit.bound 1 e.cell (by rw [hfit.size 1 e.s1]; exact b2)
  rw [f2] at b4
  rw [n1] at hbd
  refine ⟨e, hee, Or.inl ⟨f1, ?_, f2, by have := b4.2.1; omega⟩⟩
  rcases f4 with f4 | ⟨h, _⟩
  · exact f4
  · cases h

/-! ## examples -/

/-- two cells; species 0 has two particles in the first cell and a dead slot in the second, species 1 has one in the first -/
def exA : Patch := ⟨fun s => if s = 0 then 3 else 1, fun s i => s == 0 && i == 2, fun _ => 2, fun s b => if b = 0 then 0 else if s = 0 then 2 else 1,
  fun s b => if b = 0 then (if s = 0 then 2 else 1) else if s = 0 then 3 else 1⟩

example : Fits exA ∧ Shuffles exA (noShuffle exA) [(0, 0), (0, 1)] ∧
    (events exA (noShuffle exA) [(0, 0), (0, 1)]).map (List.map fun e => (e.s1, e.pair.ip1, e.s2, e.pair.ip2, e.cell)) =
      some [(0, 0, 0, 1, 0), (0, 0, 1, 0, 0), (0, 1, 1, 0, 0)] := by
  refine ⟨⟨fun _ _ => rfl, fun s b hb => ?_⟩, fun q _ b _ => ⟨List.Perm.refl _, List.Perm.refl _⟩, by decide +kernel⟩
  unfold exA
  dsimp only
  split <;> split <;> omega

/-- admissible constants exist -/
example : Good ⟨⟨1, 1, 1⟩, fun _ => ⟨1, 1⟩, 0, fun _ => 1, 1, 1, fun _ => ⟨1 / 2, 0, 1 / 2⟩⟩ := by constructor <;> norm_num

/-- the hypothesis on the places holds for a patch with particles in different cells -/
example : ∀ s i, i < (exRows 3 1 1 s).n → (exRows 3 1 1 s).dead i = false → ∃ ix < 1, ∃ iy < 3, InCell2 id 1 1 0 0 (exRows 3 1 1 s) i ix iy := by
  intro s i hi _
  have : i < 2 := hi
  by_cases h : i = 0
  · subst h
    exact ⟨0, by decide, 0, by decide, ⟨by norm_num [exRows], by norm_num [exRows]⟩, ⟨by norm_num [exRows], by norm_num [exRows]⟩⟩
  · have : i = 1 := by omega
    subst this
    exact ⟨0, by decide, 2, by decide, ⟨by norm_num [exRows], by norm_num [exRows]⟩, ⟨by norm_num [exRows], by norm_num [exRows]⟩⟩

/-! ## the check of the bucket order -/

/-- **C76, the check.** The set-up of collisions is accepted exactly if no two colliding species whose sorters have run number their buckets differently. -/
theorem check_spec (g : List (List Nat)) (st : Nat → Option Bool) :
    checkShared g st = true ↔ ∀ x ∈ g, ∀ y ∈ g, ∀ s ∈ x, ∀ s' ∈ y, ∀ r r', st s = some r → st s' = some r' → r = r' := by
  unfold checkShared
  rw [decide_eq_true_iff]
  constructor
  · intro h x hx y hy s hs s' hs' r r' hr hr'
    have m1 : r ∈ (g.flatten.filterMap st).dedup := List.mem_dedup.mpr (List.mem_filterMap.mpr ⟨s, List.mem_flatten.mpr ⟨x, hx, hs⟩, hr⟩)
    have m2 : r' ∈ (g.flatten.filterMap st).dedup := List.mem_dedup.mpr (List.mem_filterMap.mpr ⟨s', List.mem_flatten.mpr ⟨y, hy, hs'⟩, hr'⟩)
    match hl : (g.flatten.filterMap st).dedup, h, m1, m2 with
    | [a], _, m1, m2 => rw [List.mem_singleton.mp m1, List.mem_singleton.mp m2]
  · intro h
    have hn := List.nodup_dedup (g.flatten.filterMap st)
    match hl : (g.flatten.filterMap st).dedup with
    | [] => simp
    | [a] => simp
    | a :: b :: l =>
      exfalso
      have mem : ∀ r ∈ (g.flatten.filterMap st).dedup, ∃ x ∈ g, ∃ s ∈ x, st s = some r := by
        intro r hr
        obtain ⟨s, hs, e⟩ := List.mem_filterMap.mp (List.mem_dedup.mp hr)
        obtain ⟨x, hx, hsx⟩ := List.mem_flatten.mp hs
        exact ⟨x, hx, s, hsx, e⟩
      obtain ⟨x, hx, s, hs, e⟩ := mem a (by rw [hl]; simp)
      obtain ⟨y, hy, s', hs', e'⟩ := mem b (by rw [hl]; simp)
      rw [hl] at hn
      exact (List.nodup_cons.mp hn).1 (by rw [h x hx y hy s hs s' hs' a b e e']; simp)

theorem sorts_kept (B : Buckets) (calls more : List (List (ℚ × ℚ))) (h : calls ≠ []) : sorts B (calls ++ more) = sorts B calls := by
  have kept : ∀ (l : List (List (ℚ × ℚ))) r, l.foldl (fun st l => decide1 B l st) (some r) = some r := by
    intro l
    induction l with
    | nil => intro r; rfl
    | cons a l ih => intro r; exact ih r
  unfold sorts
  rw [List.foldl_append]
  match calls, h with
  | a :: l, _ =>
    have : (a :: l).foldl (fun st l => decide1 B l st) none = some (reverse B a) := kept l _
    rw [this]
    exact kept more _

/-- **C76, where the check helps.** If all colliding species have been sorted before, an accepted set-up stays good for ever: after any further
sorts all of them number their buckets the same way. -/
theorem check_guards_partial {g : List (List Nat)} {B : Buckets} {calls more : Nat → List (List (ℚ × ℚ))} (hc : ∀ s ∈ g.flatten, calls s ≠ [])
    (h : checkShared g (fun s => sorts B (calls s)) = true) :
    ∀ s ∈ g.flatten, ∀ s' ∈ g.flatten, sorts B (calls s ++ more s) = sorts B (calls s' ++ more s') := by
  intro s hs s' hs'
  rw [sorts_kept B _ _ (hc s hs), sorts_kept B _ _ (hc s' hs')]
  obtain ⟨x, hx, hsx⟩ := List.mem_flatten.mp hs
  obtain ⟨y, hy, hsy⟩ := List.mem_flatten.mp hs'
  have some_of : ∀ s, calls s ≠ [] → ∃ r, sorts B (calls s) = some r := by
    intro s h
    match hl : calls s, h with
    | a :: l, _ =>
      refine ⟨reverse B a, ?_⟩
      have := sorts_kept B [a] l (by simp)
      exact this
  obtain ⟨r, e⟩ := some_of s (hc s hs)
  obtain ⟨r', e'⟩ := some_of s' (hc s' hs')
  rw [e, e', (check_spec g _).mp h x hx y hy s hsx s' hsy r r' e e']

/-- **C76, where the check comes too early.** Before the first sort no order has been decided, so the check accepts every set-up, also one in which
the first sort gives two colliding species different orders. -/
theorem check_early_fails (nx : Nat) (dx Ly : ℚ) :
    ∃ (g : List (List Nat)) (B : Buckets) (calls : Nat → List (List (ℚ × ℚ))), B = sorter false nx 1 1 dx 1 1 Ly 1 ∧ g = [[0, 1]] ∧
      checkShared g (fun _ => sorts B []) = true ∧ sorts B (calls 0) ≠ sorts B (calls 1) ∧
      checkShared g (fun s => sorts B (calls s)) = false := by
  refine ⟨[[0, 1]], _, fun s => if s = 0 then [[(1, 1)]] else [[(1, -1)]], rfl, rfl, rfl, ?_, ?_⟩
  all_goals
    have h0 : sorts (sorter false nx 1 1 dx 1 1 Ly 1) [[(1, 1)]] = some false := by
      show some (reverse _ _) = _
      simp [reverse, sorter]
    have h1 : sorts (sorter false nx 1 1 dx 1 1 Ly 1) [[(1, -1)]] = some true := by
      show some (reverse _ _) = _
      simp [reverse, sorter]
  · show sorts _ [[(1, 1)]] ≠ sorts _ [[(1, -1)]]
    rw [h0, h1]; simp
  · refine Bool.eq_false_iff.mpr fun h => ?_
    have := (check_spec _ _).mp h [0, 1] (by simp) [0, 1] (by simp) 0 (by simp) 1 (by simp) false true h0 h1
    cases this

/-- three species, two of them collide, all drift to the right -/
example : let B := sorter false 4 1 1 1 1 1 1 1
    let calls : Nat → List (List (ℚ × ℚ)) := fun _ => [[(1, 2), (3, 1)]]
    (∀ s ∈ [[0, 2]].flatten, calls s ≠ []) ∧ checkShared [[0, 2]] (fun s => sorts B (calls s)) = true := by
  refine ⟨by simp, ?_⟩
  rw [check_spec]
  intro x _ y _ s _ s' _ r r' h h'
  exact Option.some.inj (h.symm.trans h')

end Verif.Collide
