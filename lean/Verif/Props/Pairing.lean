import Verif.Proofs.Pairing
import Mathlib.Data.Nat.Count
import Mathlib.Tactic.FieldSimp
import Mathlib.Tactic.Ring
import Mathlib.Tactic.Positivity
/-!
# C39, C40, C42 — who collides with whom
-/
namespace Verif.Pairing

/-! ## specification -/

/-- `x` is a living particle of the cell `[start, stop)` -/
def Living (dead : Nat → Bool) (start stop x : Nat) : Prop := start ≤ x ∧ x < stop ∧ dead x = false

/-- the pairs within one species in which `x` takes part -/
def involved (x : Nat) (ps : List Pair) : List Pair := ps.filter fun p => p.ip1 = x ∨ p.ip2 = x

/-- the pairs in which particle `x` of species 1 takes part -/
def involved1 (x : Nat) (ps : List Pair) : List Pair := ps.filter fun p => p.ip1 = x

/-- the pairs in which particle `x` of species 2 takes part -/
def involved2 (x : Nat) (ps : List Pair) : List Pair := ps.filter fun p => p.ip2 = x

/-- sum of the weight corrections -/
def share (ps : List Pair) : ℚ := (ps.map (·.wCorr)).sum

/-! ## helpers -/

theorem mem_lives {dead : Nat → Bool} {start stop : Nat} {idx : List Nat} (h : Shuffled start stop idx) (x : Nat) :
    x ∈ (idx.filter fun i => !dead i) ↔ Living dead start stop x := by
  rw [List.mem_filter, List.Perm.mem_iff h, List.mem_range'_1]
  unfold Living
  cases dead x <;> simp <;> omega

theorem lives_nodup {dead : Nat → Bool} {start stop : Nat} {idx : List Nat} (h : Shuffled start stop idx) :
    (idx.filter fun i => !dead i).Nodup :=
  List.Nodup.filter _ ((List.Perm.nodup_iff h).mpr List.nodup_range')

theorem getD_mem {L : List Nat} {m : Nat} (h : m < L.length) : L.getD m 0 ∈ L := by
  rw [List.getD_eq_getElem _ _ h]; exact List.getElem_mem h

theorem getD_inj {L : List Nat} (hn : L.Nodup) {m m' : Nat} (h : m < L.length) (h' : m' < L.length) :
    L.getD m 0 = L.getD m' 0 ↔ m = m' := by
  rw [List.getD_eq_getElem _ _ h, List.getD_eq_getElem _ _ h']
  exact hn.getElem_inj_iff

theorem exists_getD {L : List Nat} {x : Nat} (h : x ∈ L) : ∃ m < L.length, L.getD m 0 = x := by
  obtain ⟨m, hm, e⟩ := List.getElem_of_mem h
  exact ⟨m, hm, by rw [List.getD_eq_getElem _ _ hm]; exact e⟩

theorem filter_range_single {N c : Nat} {q : Nat → Bool} (hc : c < N) (hq : ∀ i < N, q i = true ↔ i = c) :
    (List.range N).filter q = [c] := by
  have hn : ((List.range N).filter q).Nodup := List.Nodup.filter _ List.nodup_range
  have hm : ∀ i, i ∈ (List.range N).filter q ↔ i = c := by
    intro i
    rw [List.mem_filter, List.mem_range]
    constructor
    · rintro ⟨h1, h2⟩; exact (hq i h1).mp h2
    · rintro rfl; exact ⟨hc, (hq _ hc).mpr rfl⟩
  rw [← List.perm_singleton]
  rw [List.perm_ext_iff_of_nodup hn (by simp)]
  intro a; rw [hm]; simp

theorem filter_range_pair {N c d : Nat} {q : Nat → Bool} (hc : c < N) (hd : d < N) (hcd : c ≠ d)
    (hq : ∀ i < N, q i = true ↔ i = c ∨ i = d) : ((List.range N).filter q).Perm [c, d] := by
  have hn : ((List.range N).filter q).Nodup := List.Nodup.filter _ List.nodup_range
  rw [List.perm_ext_iff_of_nodup hn (by simp [hcd])]
  intro i
  rw [List.mem_filter, List.mem_range]
  constructor
  · rintro ⟨h1, h2⟩; have := (hq i h1).mp h2; simpa using this
  · intro h
    have h : i = c ∨ i = d := by simpa using h
    have hi : i < N := by rcases h with rfl | rfl <;> assumption
    exact ⟨hi, (hq i hi).mpr h⟩

theorem involved_map (L : List Nat) (N x : Nat) :
    involved x ((List.range N).map (intraPair L)) =
      ((List.range N).filter fun i => decide ((intraPair L i).ip1 = x ∨ (intraPair L i).ip2 = x)).map (intraPair L) := by
  unfold involved
  rw [List.filter_map]; rfl

/-- which pairs contain the `m`-th living particle -/
theorem takes_part {L : List Nat} (hn : L.Nodup) (hL : 2 ≤ L.length) {m i : Nat} (hm : m < L.length)
    (hi : i < (L.length + 1) / 2) :
    ((intraPair L i).ip1 = L.getD m 0 ∨ (intraPair L i).ip2 = L.getD m 0) ↔
      i = m / 2 ∨ (m = 0 ∧ L.length % 2 = 1 ∧ i + 1 = (L.length + 1) / 2) := by
  unfold intraPair
  dsimp only
  rw [getD_inj hn (by omega) hm]
  by_cases h : 2 * i + 1 < L.length
  · rw [if_pos h, getD_inj hn h hm]; omega
  · rw [if_neg h, getD_inj hn (by omega) hm]; omega

/-! ## within one species -/

/-- **C39.** For every cell, dead mask and shuffle the pairing runs through, and with fewer than two living particles there are
no pairs. Otherwise every pair consists of two different living particles of the cell, every living particle takes part,
and
* with an even number of living particles each takes part in exactly one pair, with correction factor 1;
* with an odd number one of them takes part in exactly two pairs with factors adding up to 1, every other one in exactly
  one pair.

Partial: with an odd number the factors of the partners of the doubled particle add up to one half only
(`intra_odd_share_fails`). -/
theorem intra_pairs_partial (dead : Nat → Bool) (start stop : Nat) (idx : List Nat) (h : Shuffled start stop idx) :
    ∃ ps, intra dead start stop idx = some ps ∧
      (∀ p ∈ ps, Living dead start stop p.ip1 ∧ Living dead start stop p.ip2 ∧ p.ip1 ≠ p.ip2) ∧
      (nLive dead start stop < 2 → ps = []) ∧
      (2 ≤ nLive dead start stop → ps.length = (nLive dead start stop + 1) / 2 ∧
        ∀ x, Living dead start stop x → involved x ps ≠ []) ∧
      (2 ≤ nLive dead start stop → nLive dead start stop % 2 = 0 → ∀ x, Living dead start stop x →
        (involved x ps).length = 1 ∧ share (involved x ps) = 1) ∧
      (2 ≤ nLive dead start stop → nLive dead start stop % 2 = 1 → ∃ x0, Living dead start stop x0 ∧
        (involved x0 ps).length = 2 ∧ share (involved x0 ps) = 1 ∧
        ∀ x, Living dead start stop x → x ≠ x0 → (involved x ps).length = 1) := by
  refine ⟨_, intra_eq h, ?_⟩
  rw [nLive_shuffled h]
  have hmem := fun x => (mem_lives (dead := dead) h x)
  have hnd := lives_nodup (dead := dead) h
  generalize hLd : (idx.filter fun i => !dead i) = L at hmem hnd
  have hinv : ∀ m, m < L.length → 2 ≤ L.length → ¬ (m = 0 ∧ L.length % 2 = 1) →
      involved (L.getD m 0) ((List.range (intraPairs L.length)).map (intraPair L)) = [intraPair L (m / 2)] := by
    intro m hm hL hm0
    have hnp : intraPairs L.length = (L.length + 1) / 2 := if_pos hL
    rw [involved_map, hnp, filter_range_single (c := m / 2) (by omega)]
    · rfl
    · intro i hi
      rw [decide_eq_true_iff, takes_part hnd hL hm hi]
      omega
  have hinv0 : 2 ≤ L.length → L.length % 2 = 1 →
      (involved (L.getD 0 0) ((List.range (intraPairs L.length)).map (intraPair L))).Perm
        [intraPair L 0, intraPair L ((L.length + 1) / 2 - 1)] := by
    intro hL ho
    have hnp : intraPairs L.length = (L.length + 1) / 2 := if_pos hL
    rw [involved_map, hnp]
    refine (filter_range_pair (c := 0) (d := (L.length + 1) / 2 - 1) (by omega) (by omega) (by omega) ?_).map _
    intro i hi
    rw [decide_eq_true_iff, takes_part hnd hL (by omega) hi]
    omega
  refine ⟨?_, ?_, ?_, ?_, ?_⟩
  · intro p hp
    obtain ⟨i, hi, rfl⟩ := List.mem_map.mp hp
    have hi := List.mem_range.mp hi
    by_cases hL : 2 ≤ L.length
    · have hnp : intraPairs L.length = (L.length + 1) / 2 := if_pos hL
      rw [hnp] at hi
      refine ⟨(hmem _).mp (getD_mem (by omega)), (hmem _).mp ?_, ?_⟩
      · show (if 2 * i + 1 < L.length then L.getD (2 * i + 1) 0 else L.getD 0 0) ∈ L
        split
        · exact getD_mem (by omega)
        · exact getD_mem (by omega)
      · show L.getD (2 * i) 0 ≠ if 2 * i + 1 < L.length then L.getD (2 * i + 1) 0 else L.getD 0 0
        by_cases hlt : 2 * i + 1 < L.length
        · rw [if_pos hlt, Ne, getD_inj hnd (by omega) (by omega)]; omega
        · rw [if_neg hlt, Ne, getD_inj hnd (by omega) (by omega)]; omega
    · have hnp : intraPairs L.length = 0 := if_neg hL
      omega
  · intro hlt
    have hnp : intraPairs L.length = 0 := if_neg (by omega)
    rw [hnp]; rfl
  · intro hL
    have hnp : intraPairs L.length = (L.length + 1) / 2 := if_pos hL
    refine ⟨by simp [hnp], ?_⟩
    intro x hx
    obtain ⟨m, hm, rfl⟩ := exists_getD ((hmem x).mpr hx)
    by_cases hm0 : m = 0 ∧ L.length % 2 = 1
    · intro he
      have := (hinv0 hL hm0.2).length_eq
      rw [hm0.1] at he
      rw [he] at this; simp at this
    · rw [hinv m hm hL hm0]; simp
  · intro hL he x hx
    obtain ⟨m, hm, rfl⟩ := exists_getD ((hmem x).mpr hx)
    rw [hinv m hm hL (by omega)]
    refine ⟨rfl, ?_⟩
    simp [share, intraPair, he]
  · intro hL ho
    refine ⟨L.getD 0 0, (hmem _).mp (getD_mem (by omega)), ?_, ?_, ?_⟩
    · exact (hinv0 hL ho).length_eq
    · have := ((hinv0 hL ho).map (·.wCorr)).sum_eq
      unfold share
      rw [this]
      have e1 : (intraPair L 0).wCorr = 1 / 2 := by
        unfold intraPair; dsimp only; rw [if_neg (by omega), if_pos (Or.inl rfl)]
      have e2 : (intraPair L ((L.length + 1) / 2 - 1)).wCorr = 1 / 2 := by
        unfold intraPair; dsimp only; rw [if_neg (by omega), if_pos (Or.inr (by omega))]
      simp only [List.map_cons, List.map_nil, e1, e2, List.sum_cons, List.sum_nil]
      norm_num
    · intro x hx hne
      obtain ⟨m, hm, rfl⟩ := exists_getD ((hmem x).mpr hx)
      rw [hinv m hm hL (by rintro ⟨rfl, _⟩; exact hne rfl)]
      rfl

/-- **C39, where it fails.** Whenever a cell has an odd number (at least three) of living particles, some of them collide with
factors that add up to one half instead of one — for every dead mask and every shuffle. -/
theorem intra_odd_share_fails (dead : Nat → Bool) (start stop : Nat) (idx : List Nat) (h : Shuffled start stop idx)
    (hL : 2 ≤ nLive dead start stop) (ho : nLive dead start stop % 2 = 1) :
    ∃ ps x y, intra dead start stop idx = some ps ∧ x ≠ y ∧ Living dead start stop x ∧ Living dead start stop y ∧
      share (involved x ps) = 1 / 2 ∧ share (involved y ps) = 1 / 2 := by
  rw [nLive_shuffled h] at hL ho
  have hmem := fun x => (mem_lives (dead := dead) h x)
  have hnd := lives_nodup (dead := dead) h
  have heq := intra_eq (dead := dead) h
  generalize hLd : (idx.filter fun i => !dead i) = L at hmem hnd hL ho heq
  have hnp : intraPairs L.length = (L.length + 1) / 2 := if_pos hL
  have hinv : ∀ m, m < L.length → m ≠ 0 →
      involved (L.getD m 0) ((List.range (intraPairs L.length)).map (intraPair L)) = [intraPair L (m / 2)] := by
    intro m hm hm0
    rw [involved_map, hnp, filter_range_single (c := m / 2) (by omega)]
    · rfl
    · intro i hi
      rw [decide_eq_true_iff, takes_part hnd hL hm hi]
      omega
  refine ⟨_, L.getD 1 0, L.getD (L.length - 1) 0, heq, ?_, (hmem _).mp (getD_mem (by omega)),
    (hmem _).mp (getD_mem (by omega)), ?_, ?_⟩
  · rw [Ne, getD_inj hnd (by omega) (by omega)]; omega
  · rw [hinv 1 (by omega) (by omega)]
    have e1 : (intraPair L (1 / 2)).wCorr = 1 / 2 := by
      unfold intraPair; dsimp only; rw [if_neg (by omega), if_pos (Or.inl rfl)]
    simp [share, e1]
  · rw [hinv (L.length - 1) (by omega) (by omega)]
    have e1 : (intraPair L ((L.length - 1) / 2)).wCorr = 1 / 2 := by
      unfold intraPair; dsimp only; rw [if_neg (by omega), if_pos (Or.inr (by omega))]
    simp [share, e1]

/-- The cells of a sorted patch: every living particle of the patch is in exactly one cell (bounds as proved for the sorter,
C25), so with at least two living particles in its cell it collides there. -/
theorem one_cell (dead : Nat → Bool) (bmin bmax : Nat → Nat) (nbin n : Nat) (hn : 0 < nbin) (h0 : bmin 0 = 0)
    (hl : bmax (nbin - 1) = n) (hc : ∀ b, b + 1 < nbin → bmax b = bmin (b + 1)) (hle : ∀ b, b < nbin → bmin b ≤ bmax b)
    (x : Nat) (hx : x < n) (hd : dead x = false) : ∃! b, b < nbin ∧ Living dead (bmin b) (bmax b) x := by
  have mono : ∀ d a, a + d < nbin → bmin a ≤ bmin (a + d) := by
    intro d
    induction d with
    | zero => intro a _; exact Nat.le_refl _
    | succ d ih =>
      intro a hd
      have h1 := ih a (by omega)
      have h2 := hle (a + d) (by omega)
      have h3 := hc (a + d) (by omega)
      have : a + (d + 1) = a + d + 1 := rfl
      rw [this]; omega
  have ex : ∀ k, k < nbin → x < bmax k → ∃ b, b < nbin ∧ bmin b ≤ x ∧ x < bmax b := by
    intro k
    induction k with
    | zero => intro hk hx; exact ⟨0, hk, by omega, hx⟩
    | succ k ih =>
      intro hk hx
      by_cases h : x < bmax k
      · exact ih (by omega) h
      · exact ⟨k + 1, hk, by rw [← hc k hk]; omega, hx⟩
  obtain ⟨b, hb, h1, h2⟩ := ex (nbin - 1) (by omega) (by omega)
  refine ⟨b, ⟨hb, h1, h2, hd⟩, ?_⟩
  rintro b' ⟨hb', h1', h2', _⟩
  rcases Nat.lt_trichotomy b' b with h | h | h
  · have m1 := mono (b - b' - 1) (b' + 1) (by omega)
    have m2 := hc b' (by omega)
    rw [show b' + 1 + (b - b' - 1) = b by omega] at m1
    omega
  · exact h
  · have m1 := mono (b' - b - 1) (b + 1) (by omega)
    have m2 := hc b (by omega)
    rw [show b + 1 + (b' - b - 1) = b' by omega] at m1
    omega

/-! ## between two species -/

theorem countP_range (N : Nat) (q : Nat → Prop) [DecidablePred q] :
    ((List.range N).filter fun i => decide (q i)).length = Nat.count q N := by
  induction N with
  | zero => rfl
  | succ n ih =>
    rw [List.range_succ, List.filter_append, List.length_append, ih, Nat.count_succ]
    by_cases h : q n <;> simp [h]

/-- the pairs as `(shuffled, cyclic, factor)`: each shuffled particle once; each cyclic particle `q` or `q + 1` times with
factors adding up to one -/
theorem inter_core {LS LC : List Nat} (hS : LS.Nodup) (hC : LC.Nodup) (hC0 : 0 < LC.length) (hle : LC.length ≤ LS.length) :
    let rs := (List.range LS.length).map fun i => (LS.getD i 0, LC.getD (i % LC.length) 0, interW LS.length LC.length i)
    (∀ x ∈ LS, (rs.filter fun r => r.1 = x).length = 1) ∧
    (∀ y ∈ LC, 1 ≤ (rs.filter fun r => r.2.1 = y).length ∧ ((rs.filter fun r => r.2.1 = y).map (·.2.2)).sum = 1) := by
  intro rs
  constructor
  · intro x hx
    obtain ⟨m, hm, rfl⟩ := exists_getD hx
    show (List.filter _ (List.map _ _)).length = 1
    rw [List.filter_map, List.length_map]
    rw [filter_range_single (c := m) hm]
    · rfl
    · intro i hi
      simp only [Function.comp]
      rw [decide_eq_true_iff, getD_inj hS hi hm]
  · intro y hy
    obtain ⟨m, hm, rfl⟩ := exists_getD hy
    have e : (rs.filter fun r => r.2.1 = LC.getD m 0) = ((List.range LS.length).filter fun i => decide (i ≡ m [MOD LC.length])).map
        fun i => (LS.getD i 0, LC.getD (i % LC.length) 0, interW LS.length LC.length i) := by
      show List.filter _ (List.map _ _) = _
      rw [List.filter_map]
      congr 1
      apply List.filter_congr
      intro i hi
      simp only [Function.comp]
      congr 1
      rw [getD_inj hC (Nat.mod_lt _ hC0) hm]
      unfold Nat.ModEq
      rw [Nat.mod_eq_of_lt hm]
    have hcount : ((List.range LS.length).filter fun i => decide (i ≡ m [MOD LC.length])).length =
        LS.length / LC.length + if m < LS.length % LC.length then 1 else 0 := by
      rw [countP_range, Nat.count_modEq_card _ hC0, Nat.mod_eq_of_lt hm]
    have hq : 1 ≤ LS.length / LC.length := (Nat.one_le_div_iff hC0).mpr hle
    constructor
    · rw [e, List.length_map, hcount]; omega
    · rw [e, List.map_map]
      have hconst : ((List.range LS.length).filter fun i => decide (i ≡ m [MOD LC.length])).map
          ((fun r : Nat × Nat × ℚ => r.2.2) ∘ fun i => (LS.getD i 0, LC.getD (i % LC.length) 0, interW LS.length LC.length i)) =
          ((List.range LS.length).filter fun i => decide (i ≡ m [MOD LC.length])).map
            fun _ => interW LS.length LC.length m := by
        apply List.map_congr_left
        intro i hi
        have hi := of_decide_eq_true (List.mem_filter.mp hi).2
        show interW _ _ i = _
        unfold interW
        rw [show i % LC.length = m % LC.length from hi]
      rw [hconst, List.map_const', List.sum_replicate, hcount, nsmul_eq_mul]
      unfold interW
      rw [Nat.mod_eq_of_lt hm]
      have hq' : ((LS.length / LC.length : Nat) : ℚ) ≠ 0 := by exact_mod_cast (by omega : LS.length / LC.length ≠ 0)
      by_cases h : m < LS.length % LC.length
      · rw [if_pos h, if_pos h]; push_cast
        have : ((LS.length / LC.length : Nat) : ℚ) + 1 ≠ 0 := by positivity
        field_simp
      · rw [if_neg h, if_neg h, Nat.add_zero]; exact mul_one_div_cancel hq'

theorem inter_eq {dead1 dead2 : Nat → Bool} {start1 stop1 start2 stop2 : Nat} {idx1 idx2 : List Nat}
    (h1 : Shuffled start1 stop1 idx1) (h2 : Shuffled start2 stop2 idx2) :
    (nLive dead2 start2 stop2 ≠ 0 → nLive dead2 start2 stop2 ≤ nLive dead1 start1 stop1 →
      ∃ LS LC : List Nat, LS = (idx1.filter fun i => !dead1 i) ∧
        LC = ((List.range' start2 (stop2 - start2)).filter fun i => !dead2 i) ∧
        inter dead1 start1 stop1 dead2 start2 stop2 idx1 idx2 = some ((List.range LS.length).map fun i =>
          ⟨LS.getD i 0, LC.getD (i % LC.length) 0, interW LS.length LC.length i, LS.length⟩)) ∧
    (nLive dead1 start1 stop1 ≠ 0 → nLive dead1 start1 stop1 < nLive dead2 start2 stop2 →
      ∃ LS LC : List Nat, LS = (idx2.filter fun i => !dead2 i) ∧
        LC = ((List.range' start1 (stop1 - start1)).filter fun i => !dead1 i) ∧
        inter dead1 start1 stop1 dead2 start2 stop2 idx1 idx2 = some ((List.range LS.length).map fun i =>
          ⟨LC.getD (i % LC.length) 0, LS.getD i 0, interW LS.length LC.length i, LS.length⟩)) := by
  constructor
  · intro h0 hle
    refine ⟨_, _, rfl, rfl, ?_⟩
    unfold inter
    dsimp only
    rw [if_neg (by omega), if_pos hle]
    rw [nLive_shuffled h1, ← h1.length]
    rw [nLive_eq dead2] at h0 ⊢
    have := interLoop_eq (liveAt dead1 idx1) (fun j => !dead2 (start2 + j)) idx1 start2 (stop2 - start2) _ _
      (lives_eq dead1 idx1) (cyclic_eq dead2 start2 (stop2 - start2)) (by omega) _ 0 (by rw [Nat.zero_add]) ⟨-1, -1, 0⟩ rfl rfl
      (by intro h; simp at h)
    rw [← List.range_eq_range'] at this
    rw [this, Option.map_some, List.map_map]
    rfl
  · intro h0 hlt
    refine ⟨_, _, rfl, rfl, ?_⟩
    unfold inter
    dsimp only
    rw [if_neg (by omega), if_neg (by omega)]
    rw [nLive_shuffled h2, ← h2.length]
    rw [nLive_eq dead1] at h0 ⊢
    have := interLoop_eq (liveAt dead2 idx2) (fun j => !dead1 (start1 + j)) idx2 start1 (stop1 - start1) _ _
      (lives_eq dead2 idx2) (cyclic_eq dead1 start1 (stop1 - start1)) (by omega) _ 0 (by rw [Nat.zero_add]) ⟨-1, -1, 0⟩ rfl rfl
      (by intro h; simp at h)
    rw [← List.range_eq_range'] at this
    rw [this, Option.map_some, List.map_map]
    rfl

theorem shuffled_self (start stop : Nat) : Shuffled start stop (List.range' start (stop - start)) := List.Perm.refl _

/-- **C40.** For every cell, dead masks and shuffles the pairing runs through; without living particles on one side there are
no pairs. Otherwise every pair consists of a living particle of each species; every living particle of the side with more
living particles (species 1 on a tie) is in exactly one pair, every living particle of the other side in at least one, with
factors adding up to one.

Partial: the factors of the larger side do not add up to one unless the numbers agree (`inter_share_fails`). -/
theorem inter_pairs_partial (dead1 dead2 : Nat → Bool) (start1 stop1 start2 stop2 : Nat) (idx1 idx2 : List Nat)
    (h1 : Shuffled start1 stop1 idx1) (h2 : Shuffled start2 stop2 idx2) :
    ∃ ps, inter dead1 start1 stop1 dead2 start2 stop2 idx1 idx2 = some ps ∧
      (∀ p ∈ ps, Living dead1 start1 stop1 p.ip1 ∧ Living dead2 start2 stop2 p.ip2) ∧
      (nLive dead1 start1 stop1 = 0 ∨ nLive dead2 start2 stop2 = 0 → ps = []) ∧
      (0 < nLive dead2 start2 stop2 → nLive dead2 start2 stop2 ≤ nLive dead1 start1 stop1 →
        (∀ x, Living dead1 start1 stop1 x → (involved1 x ps).length = 1) ∧
        (∀ y, Living dead2 start2 stop2 y → 1 ≤ (involved2 y ps).length ∧ share (involved2 y ps) = 1)) ∧
      (0 < nLive dead1 start1 stop1 → nLive dead1 start1 stop1 < nLive dead2 start2 stop2 →
        (∀ y, Living dead2 start2 stop2 y → (involved2 y ps).length = 1) ∧
        (∀ x, Living dead1 start1 stop1 x → 1 ≤ (involved1 x ps).length ∧ share (involved1 x ps) = 1)) := by
  by_cases hz : nLive dead1 start1 stop1 = 0 ∨ nLive dead2 start2 stop2 = 0
  · refine ⟨[], ?_, by simp, fun _ => rfl, by omega, by omega⟩
    unfold inter; dsimp only; rw [if_pos hz]
  · obtain ⟨g1, g2⟩ := inter_eq (dead1 := dead1) (dead2 := dead2) h1 h2
    by_cases hle : nLive dead2 start2 stop2 ≤ nLive dead1 start1 stop1
    · obtain ⟨LS, LC, eS, eC, e⟩ := g1 (by omega) hle
      have hlS : nLive dead1 start1 stop1 = LS.length := by rw [eS]; exact nLive_shuffled h1
      have hlC : nLive dead2 start2 stop2 = LC.length := by rw [eC]; exact nLive_eq _ _ _
      have hmS := fun x => (mem_lives (dead := dead1) h1 x)
      have hmC := fun x => (mem_lives (dead := dead2) (shuffled_self start2 stop2) x)
      have hnS := lives_nodup (dead := dead1) h1
      have hnC := lives_nodup (dead := dead2) (shuffled_self start2 stop2)
      rw [← eS] at hmS hnS
      rw [← eC] at hmC hnC
      obtain ⟨c1, c2⟩ := inter_core hnS hnC (by omega) (by omega)
      refine ⟨_, e, ?_, fun h => absurd h hz, fun _ _ => ⟨fun x hx => ?_, fun y hy => ?_⟩, by omega⟩
      · intro p hp
        obtain ⟨i, hi, rfl⟩ := List.mem_map.mp hp
        exact ⟨(hmS _).mp (getD_mem (List.mem_range.mp hi)), (hmC _).mp (getD_mem (Nat.mod_lt _ (by omega)))⟩
      · have := c1 x ((hmS x).mpr hx)
        rw [List.filter_map, List.length_map] at this
        unfold involved1
        rw [List.filter_map, List.length_map]
        exact this
      · have := c2 y ((hmC y).mpr hy)
        rw [List.filter_map, List.length_map, List.map_map] at this
        unfold share involved2
        rw [List.filter_map, List.length_map, List.map_map]
        exact this
    · obtain ⟨LS, LC, eS, eC, e⟩ := g2 (by omega) (by omega)
      have hlS : nLive dead2 start2 stop2 = LS.length := by rw [eS]; exact nLive_shuffled h2
      have hlC : nLive dead1 start1 stop1 = LC.length := by rw [eC]; exact nLive_eq _ _ _
      have hmS := fun x => (mem_lives (dead := dead2) h2 x)
      have hmC := fun x => (mem_lives (dead := dead1) (shuffled_self start1 stop1) x)
      have hnS := lives_nodup (dead := dead2) h2
      have hnC := lives_nodup (dead := dead1) (shuffled_self start1 stop1)
      rw [← eS] at hmS hnS
      rw [← eC] at hmC hnC
      obtain ⟨c1, c2⟩ := inter_core hnS hnC (by omega) (by omega)
      refine ⟨_, e, ?_, fun h => absurd h hz, by omega, fun _ _ => ⟨fun x hx => ?_, fun y hy => ?_⟩⟩
      · intro p hp
        obtain ⟨i, hi, rfl⟩ := List.mem_map.mp hp
        exact ⟨(hmC _).mp (getD_mem (Nat.mod_lt _ (by omega))), (hmS _).mp (getD_mem (List.mem_range.mp hi))⟩
      · have := c1 x ((hmS x).mpr hx)
        rw [List.filter_map, List.length_map] at this
        unfold involved2
        rw [List.filter_map, List.length_map]
        exact this
      · have := c2 y ((hmC y).mpr hy)
        rw [List.filter_map, List.length_map, List.map_map] at this
        unfold share involved1
        rw [List.filter_map, List.length_map, List.map_map]
        exact this

/-- **C40, where it fails.** Whenever species 1 has more living particles in a cell than species 2 (and species 2 has some), some
living particle of species 1 collides with a factor below one — for every dead mask and shuffle. -/
theorem inter_share_fails (dead1 dead2 : Nat → Bool) (start1 stop1 start2 stop2 : Nat) (idx1 idx2 : List Nat)
    (h1 : Shuffled start1 stop1 idx1) (h2 : Shuffled start2 stop2 idx2) (h0 : 0 < nLive dead2 start2 stop2)
    (hlt : nLive dead2 start2 stop2 < nLive dead1 start1 stop1) :
    ∃ ps x, inter dead1 start1 stop1 dead2 start2 stop2 idx1 idx2 = some ps ∧ Living dead1 start1 stop1 x ∧
      share (involved1 x ps) ≤ 1 / 2 := by
  obtain ⟨LS, LC, eS, eC, e⟩ := (inter_eq (dead1 := dead1) (dead2 := dead2) h1 h2).1 (by omega) (by omega)
  have hlS : nLive dead1 start1 stop1 = LS.length := by rw [eS]; exact nLive_shuffled h1
  have hlC : nLive dead2 start2 stop2 = LC.length := by rw [eC]; exact nLive_eq _ _ _
  have hmS := fun x => (mem_lives (dead := dead1) h1 x)
  have hnS := lives_nodup (dead := dead1) h1
  rw [← eS] at hmS hnS
  refine ⟨_, LS.getD 0 0, e, (hmS _).mp (getD_mem (by omega)), ?_⟩
  unfold share involved1
  rw [List.filter_map]
  have hf : (List.range LS.length).filter ((fun p : Pair => decide (p.ip1 = LS.getD 0 0)) ∘ fun i =>
      (⟨LS.getD i 0, LC.getD (i % LC.length) 0, interW LS.length LC.length i, LS.length⟩ : Pair)) = [0] := by
    apply filter_range_single (by omega)
    intro i hi
    simp only [Function.comp]
    rw [decide_eq_true_iff, getD_inj hnS hi (by omega)]
  rw [hf]
  simp only [List.map_cons, List.map_nil, List.sum_cons, List.sum_nil, add_zero]
  unfold interW
  rw [Nat.zero_mod]
  have hq : 1 ≤ LS.length / LC.length := (Nat.one_le_div_iff (by omega)).mpr (by omega)
  have hmd := Nat.div_add_mod LS.length LC.length
  have half : ∀ q : ℚ, 2 ≤ q → 1 / q ≤ 1 / 2 := fun q hq => one_div_le_one_div_of_le (by norm_num) hq
  by_cases h : 0 < LS.length % LC.length
  · rw [if_pos h]
    apply half
    have : (1 : ℚ) ≤ (LS.length / LC.length : Nat) := by exact_mod_cast hq
    linarith
  · rw [if_neg h]
    apply half
    have h2 : 2 ≤ LS.length / LC.length := by
      by_contra hc
      have : LS.length / LC.length = 1 := by omega
      rw [this] at hmd
      omega
    exact_mod_cast h2

/-! ## which species collide -/

theorem mem_combinations2 (g : List Nat) (a b : Nat) : (a, b) ∈ combinations2 g ↔ [a, b].Sublist g := by
  induction g with
  | nil => simp [combinations2]
  | cons c g ih =>
    rw [combinations2, List.mem_append, ih, List.mem_map]
    constructor
    · rintro (⟨d, hd, e⟩ | h)
      · cases e
        exact List.Sublist.cons_cons _ (List.singleton_sublist.mpr hd)
      · exact h.cons _
    · intro h
      cases h with
      | cons _ h => exact Or.inr h
      | cons_cons _ h => exact Or.inl ⟨b, List.singleton_sublist.mp h, rfl⟩

/-- adding pairs keeps the list free of duplicates and adds exactly those pairs -/
theorem add_pairs (ps : List (Nat × Nat)) (cs : List (Nat × Nat)) (h : cs.Nodup) :
    (ps.foldl (fun cs p => if ordered p ∈ cs then cs else cs ++ [ordered p]) cs).Nodup ∧
    ∀ q, q ∈ ps.foldl (fun cs p => if ordered p ∈ cs then cs else cs ++ [ordered p]) cs ↔
      q ∈ cs ∨ ∃ p ∈ ps, ordered p = q := by
  induction ps generalizing cs with
  | nil => simp [h]
  | cons p ps ih =>
    rw [List.foldl_cons]
    by_cases hp : ordered p ∈ cs
    · rw [if_pos hp]
      refine ⟨(ih cs h).1, fun q => ?_⟩
      rw [(ih cs h).2]
      constructor
      · rintro (hq | ⟨p', h1, h2⟩)
        · exact Or.inl hq
        · exact Or.inr ⟨p', by simp [h1], h2⟩
      · rintro (hq | ⟨p', h1, h2⟩)
        · exact Or.inl hq
        · rcases List.mem_cons.mp h1 with rfl | h1
          · exact Or.inl (h2 ▸ hp)
          · exact Or.inr ⟨p', h1, h2⟩
    · rw [if_neg hp]
      have hn : (cs ++ [ordered p]).Nodup := by
        rw [List.nodup_append]
        exact ⟨h, by simp, fun a ha b hb e => hp (by rw [List.mem_singleton.mp hb] at e; rw [← e]; exact ha)⟩
      refine ⟨(ih _ hn).1, fun q => ?_⟩
      rw [(ih _ hn).2]
      rw [List.mem_append, List.mem_singleton]
      constructor
      · rintro ((hq | hq) | ⟨p', h1, h2⟩)
        · exact Or.inl hq
        · exact Or.inr ⟨p, by simp, hq.symm⟩
        · exact Or.inr ⟨p', by simp [h1], h2⟩
      · rintro (hq | ⟨p', h1, h2⟩)
        · exact Or.inl (Or.inl hq)
        · rcases List.mem_cons.mp h1 with rfl | h1
          · exact Or.inl (Or.inr h2.symm)
          · exact Or.inr ⟨p', h1, h2⟩

theorem collisions_spec (groups : List (List Nat)) :
    (collisions groups).Nodup ∧ ∀ q, q ∈ collisions groups ↔ ∃ g ∈ groups, ∃ p ∈ combinations2 g, ordered p = q := by
  unfold collisions
  have main : ∀ (gs : List (List Nat)) (cs : List (Nat × Nat)), cs.Nodup →
      (gs.foldl (fun cs g => (combinations2 g).foldl (fun cs p => if ordered p ∈ cs then cs else cs ++ [ordered p]) cs) cs).Nodup ∧
      ∀ q, q ∈ gs.foldl (fun cs g => (combinations2 g).foldl (fun cs p => if ordered p ∈ cs then cs else cs ++ [ordered p]) cs) cs
        ↔ q ∈ cs ∨ ∃ g ∈ gs, ∃ p ∈ combinations2 g, ordered p = q := by
    intro gs
    induction gs with
    | nil => intro cs h; simp [h]
    | cons g gs ih =>
      intro cs h
      rw [List.foldl_cons]
      obtain ⟨a1, a2⟩ := add_pairs (combinations2 g) cs h
      obtain ⟨b1, b2⟩ := ih _ a1
      refine ⟨b1, fun q => ?_⟩
      rw [b2, a2]
      constructor
      · rintro ((hq | hq) | ⟨g', h1, h2⟩)
        · exact Or.inl hq
        · exact Or.inr ⟨g, by simp, hq⟩
        · exact Or.inr ⟨g', by simp [h1], h2⟩
      · rintro (hq | ⟨g', h1, h2⟩)
        · exact Or.inl (Or.inl hq)
        · rcases List.mem_cons.mp h1 with rfl | h1
          · exact Or.inl (Or.inr h2)
          · exact Or.inr ⟨g', h1, h2⟩
  have := main groups [] (by simp)
  simpa using this

theorem ordered_pair {a b : Nat} (h : a < b) (p : Nat × Nat) : ordered p = (a, b) ↔ p = (a, b) ∨ p = (b, a) := by
  unfold ordered
  obtain ⟨x, y⟩ := p
  dsimp only
  by_cases hxy : x < y
  · rw [if_pos hxy]; simp only [Prod.mk.injEq]; omega
  · rw [if_neg hxy]; simp only [Prod.mk.injEq]; omega

theorem two_sublist {g : List Nat} {a b : Nat} (hab : a ≠ b) :
    ([a, b].Sublist g ∨ [b, a].Sublist g) ↔ a ∈ g ∧ b ∈ g := by
  constructor
  · rintro (h | h)
    · exact ⟨h.subset (by simp), h.subset (by simp)⟩
    · exact ⟨h.subset (by simp), h.subset (by simp)⟩
  · rintro ⟨ha, hb⟩
    induction g with
    | nil => simp at ha
    | cons c g ih =>
      rcases List.mem_cons.mp ha with h1 | ha'
      · subst h1
        rcases List.mem_cons.mp hb with h2 | hb'
        · exact absurd h2.symm hab
        · exact Or.inl (List.Sublist.cons_cons _ (List.singleton_sublist.mpr hb'))
      · rcases List.mem_cons.mp hb with h2 | hb'
        · subst h2
          exact Or.inr (List.Sublist.cons_cons _ (List.singleton_sublist.mpr ha'))
        · rcases ih ha' hb' with h | h
          · exact Or.inl (h.cons _)
          · exact Or.inr (h.cons _)

/-- **C42.** However the groups overlap: no pair is handled twice; two different species `a < b` are paired exactly if some
group contains both; a species is paired with itself exactly if some group lists it at least twice; and every pair is
stored with the smaller index first. -/
theorem species_pairs (groups : List (List Nat)) :
    (collisions groups).Nodup ∧
    (∀ a b, a < b → ((a, b) ∈ collisions groups ↔ ∃ g ∈ groups, a ∈ g ∧ b ∈ g)) ∧
    (∀ a, (a, a) ∈ collisions groups ↔ ∃ g ∈ groups, 2 ≤ g.count a) ∧
    (∀ a b, b < a → (a, b) ∉ collisions groups) := by
  obtain ⟨h1, h2⟩ := collisions_spec groups
  refine ⟨h1, ?_, ?_, ?_⟩
  · intro a b hab
    rw [h2]
    constructor
    · rintro ⟨g, hg, p, hp, e⟩
      refine ⟨g, hg, (two_sublist (by omega)).mp ?_⟩
      rcases (ordered_pair hab p).mp e with rfl | rfl
      · exact Or.inl ((mem_combinations2 _ _ _).mp hp)
      · exact Or.inr ((mem_combinations2 _ _ _).mp hp)
    · rintro ⟨g, hg, hm⟩
      rcases (two_sublist (by omega)).mpr hm with h | h
      · exact ⟨g, hg, (a, b), (mem_combinations2 _ _ _).mpr h, (ordered_pair hab _).mpr (Or.inl rfl)⟩
      · exact ⟨g, hg, (b, a), (mem_combinations2 _ _ _).mpr h, (ordered_pair hab _).mpr (Or.inr rfl)⟩
  · intro a
    rw [h2]
    have ho : ∀ p, ordered p = (a, a) ↔ p = (a, a) := by
      rintro ⟨x, y⟩
      unfold ordered
      dsimp only
      by_cases hxy : x < y
      · rw [if_pos hxy]
      · rw [if_neg hxy]; simp only [Prod.mk.injEq]; omega
    constructor
    · rintro ⟨g, hg, p, hp, e⟩
      rw [ho] at e; subst e
      exact ⟨g, hg, List.replicate_sublist_iff.mp ((mem_combinations2 _ _ _).mp hp)⟩
    · rintro ⟨g, hg, hc⟩
      exact ⟨g, hg, (a, a), (mem_combinations2 _ _ _).mpr (List.replicate_sublist_iff.mpr hc), (ho _).mpr rfl⟩
  · intro a b hba
    rw [h2]
    rintro ⟨g, hg, ⟨x, y⟩, hp, e⟩
    unfold ordered at e
    dsimp only at e
    by_cases hxy : x < y
    · rw [if_pos hxy, Prod.mk.injEq] at e; omega
    · rw [if_neg hxy, Prod.mk.injEq] at e; omega

/-- one call handles exactly the enabled pairs, each once; disabling a pair in either order of its species removes that pair
and no other, and is refused for pairs that do not collide -/
theorem enabled_pairs (groups : List (List Nat)) (en : Nat × Nat → Bool) :
    (called (collisions groups) en).Nodup ∧
    (∀ q, q ∈ called (collisions groups) en ↔ q ∈ collisions groups ∧ en q = true) ∧
    (∀ a b v en', setEnabled (collisions groups) en (a, b) v = some en' →
      setEnabled (collisions groups) en (b, a) v = some en' ∧
      en' (min a b, max a b) = v ∧ ∀ q, q ≠ (min a b, max a b) → en' q = en q) ∧
    (∀ a b v, setEnabled (collisions groups) en (a, b) v = none ↔ (min a b, max a b) ∉ collisions groups) := by
  have ho : ∀ a b, ordered (a, b) = (min a b, max a b) := by
    intro a b
    unfold ordered
    dsimp only
    by_cases h : a < b
    · rw [if_pos h, min_eq_left h.le, max_eq_right h.le]
    · rw [if_neg h, min_eq_right (by omega), max_eq_left (by omega)]
  refine ⟨List.Nodup.filter _ (species_pairs groups).1, fun q => List.mem_filter, ?_, ?_⟩
  · intro a b v en' h
    unfold setEnabled at h ⊢
    rw [ho] at h ⊢
    rw [min_comm b a, max_comm b a]
    refine ⟨h, ?_⟩
    by_cases hm : (min a b, max a b) ∈ collisions groups
    · rw [if_pos hm] at h
      cases h
      exact ⟨if_pos rfl, fun q hq => if_neg hq⟩
    · rw [if_neg hm] at h; cases h
  · intro a b v
    unfold setEnabled
    rw [ho]
    by_cases hm : (min a b, max a b) ∈ collisions groups
    · rw [if_pos hm]; simp [hm]
    · rw [if_neg hm]; simp [hm]

/-! ## examples -/

/-- five living particles and one dead one, shuffled -/
def exDead : Nat → Bool := fun i => i == 4

example : Shuffled 2 8 [5, 2, 4, 7, 3, 6] ∧ nLive exDead 2 8 = 5 ∧ intra exDead 2 8 [5, 2, 4, 7, 3, 6] =
    some [⟨5, 2, 1/2, 5⟩, ⟨7, 3, 1, 5⟩, ⟨6, 5, 1/2, 5⟩] := by
  unfold Shuffled
  decide +kernel

/-- five against two -/
example : inter exDead 2 8 (fun _ => false) 10 12 [5, 2, 4, 7, 3, 6] [11, 10] =
    some [⟨5, 10, 1/3, 5⟩, ⟨2, 11, 1/2, 5⟩, ⟨7, 10, 1/3, 5⟩, ⟨3, 11, 1/2, 5⟩, ⟨6, 10, 1/3, 5⟩] := by decide +kernel

/-- overlapping groups -/
example : collisions [[2, 0, 0], [0, 2, 1]] = [(0, 2), (0, 0), (1, 2), (0, 1)] ∨
    collisions [[2, 0, 0], [0, 2, 1]] = [(0, 2), (0, 0), (0, 1), (1, 2)] := by decide +kernel

end Verif.Pairing
