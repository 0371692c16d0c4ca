import Verif.Model.Pairing
import Mathlib.Data.List.Nodup
import Mathlib.Data.List.Sort
import Mathlib.Data.List.GetD
import Mathlib.Data.Int.CardIntervalMod
import Mathlib.Algebra.BigOperators.Group.List.Basic
import Mathlib.Tactic.Linarith
/-! # Lemmas on the pairing iterators -/
namespace Verif.Pairing

/-! ## live positions -/

/-- the live positions below `n`, ascending -/
def positions (live : Nat → Bool) (n : Nat) : List Nat := (List.range n).filter live

/-- the `m`-th live position -/
def pos (live : Nat → Bool) (n m : Nat) : Nat := (positions live n).getD m 0

/-- the number of live positions -/
def npos (live : Nat → Bool) (n : Nat) : Nat := (positions live n).length

theorem pos_eq {live : Nat → Bool} {n m : Nat} (h : m < npos live n) : pos live n m = (positions live n)[m]'h := by
  unfold pos; exact List.getD_eq_getElem _ _ h

theorem pos_lt {live : Nat → Bool} {n m m' : Nat} (h : m < m') (h' : m' < npos live n) : pos live n m < pos live n m' := by
  have hp : (positions live n).Pairwise (· < ·) := List.Pairwise.filter _ List.pairwise_lt_range
  rw [pos_eq h', pos_eq (h.trans h')]
  exact List.pairwise_iff_getElem.mp hp m m' _ h' h

theorem pos_live {live : Nat → Bool} {n m : Nat} (h : m < npos live n) : live (pos live n m) = true ∧ pos live n m < n := by
  have := List.getElem_mem h
  rw [← pos_eq h] at this
  have := List.mem_filter.mp this
  exact ⟨this.2, List.mem_range.mp this.1⟩

theorem pos_complete {live : Nat → Bool} {n j : Nat} (hj : j < n) (hl : live j = true) :
    ∃ m < npos live n, pos live n m = j := by
  obtain ⟨m, h, e⟩ := List.getElem_of_mem (List.mem_filter.mpr ⟨List.mem_range.mpr hj, hl⟩ : j ∈ positions live n)
  exact ⟨m, h, by rw [pos_eq h]; exact e⟩

/-- the search finds the next live position -/
theorem search_pos {live : Nat → Bool} {n : Nat} {a b old : Int} {m : Nat} (hm : m < npos live n)
    (ha : 0 ≤ a) (ham : a ≤ pos live n m) (hb : (pos live n m : Int) < b)
    (hprev : ∀ m' < m, (pos live n m' : Int) < a) :
    search live a b old = pos live n m := by
  unfold search
  have hf : (List.range' a.toNat (b - a.toNat).toNat).find? live = some (pos live n m) := by
    rw [List.find?_range'_eq_some]
    refine ⟨(pos_live hm).1, ?_, ?_⟩
    · rw [List.mem_range'_1]; omega
    · intro j hj1 hj2
      by_contra hl
      have hl : live j = true := by simpa using hl
      obtain ⟨m', h', e⟩ := pos_complete (n := n) (by have := (pos_live hm).2; omega) hl
      rcases Nat.lt_trichotomy m' m with h | h | h
      · have := hprev m' h; omega
      · subst h; omega
      · have := pos_lt h h'; omega
  rw [hf]

/-- the search after the previous live position (or from the start) finds the next -/
theorem search_next {live : Nat → Bool} {n : Nat} {a old : Int} {m : Nat} (hm : m < npos live n)
    (ha : a = if m = 0 then (-1 : Int) else pos live n (m - 1)) : search live (a + 1) n old = pos live n m := by
  have hl := (pos_live hm).2
  by_cases h0 : m = 0
  · rw [if_pos h0] at ha
    subst h0
    exact search_pos hm (by omega) (by omega) (by omega) (by omega)
  · rw [if_neg h0] at ha
    have := pos_lt (live := live) (n := n) (m := m - 1) (m' := m) (by omega) hm
    refine search_pos hm (by omega) (by omega) (by omega) fun m' hm' => ?_
    by_cases h : m' = m - 1
    · subst h; omega
    · have := pos_lt (live := live) (n := n) (m := m') (m' := m - 1) (by omega) (by omega)
      omega

/-! ## the array of indices -/

theorem lives_eq (dead : Nat → Bool) (idx : List Nat) :
    (positions (liveAt dead idx) idx.length).map (fun j => idx.getD j 0) = idx.filter fun i => !dead i := by
  have e : idx = (List.range idx.length).map fun j => idx.getD j 0 := by
    apply List.ext_getElem
    · simp
    · intro i h1 h2; simp [h1]
  conv_rhs => rw [e, List.filter_map]
  unfold positions
  congr 1
  apply List.filter_congr
  intro j hj
  have hj : j < idx.length := List.mem_range.mp hj
  simp [liveAt, hj]

theorem at?_pos {idx : List Nat} {live : Nat → Bool} {m : Nat} (hm : m < npos live idx.length) :
    at? idx (pos live idx.length m : Nat) =
      some (((positions live idx.length).map fun j => idx.getD j 0).getD m 0) := by
  unfold at?
  have := (pos_live hm).2
  rw [if_neg (by omega)]
  have hm' : m < (positions live idx.length).length := hm
  rw [pos_eq hm] at this ⊢
  simp only [Int.toNat_natCast]
  rw [List.getD_eq_getElem _ _ (by simpa using hm'), List.getElem_map, List.getElem?_eq_getElem this]
  exact congrArg some (List.getD_eq_getElem _ _ this).symm

/-- the shuffled indices of a cell -/
def Shuffled (start stop : Nat) (idx : List Nat) : Prop := idx.Perm (List.range' start (stop - start))

theorem Shuffled.length {start stop : Nat} {idx : List Nat} (h : Shuffled start stop idx) : idx.length = stop - start := by
  rw [List.Perm.length_eq h, List.length_range']

theorem nLive_eq (dead : Nat → Bool) (start stop : Nat) :
    nLive dead start stop = ((List.range' start (stop - start)).filter fun i => !dead i).length := by
  unfold nLive
  have h := List.length_eq_countP_add_countP (p := dead) (l := List.range' start (stop - start))
  rw [List.length_range'] at h
  have e : ((List.range' start (stop - start)).filter fun i => !dead i).length =
      (List.range' start (stop - start)).countP (fun a => decide ¬ dead a = true) := by
    rw [← List.countP_eq_length_filter]
    apply List.countP_congr
    intro x _
    cases dead x <;> simp
  rw [e]
  omega

theorem nLive_shuffled {dead : Nat → Bool} {start stop : Nat} {idx : List Nat} (h : Shuffled start stop idx) :
    nLive dead start stop = (idx.filter fun i => !dead i).length := by
  rw [nLive_eq]
  exact (h.filter _).length_eq.symm

/-! ## within one species -/

/-- the `i`-th pair, when `L` are the living particles in shuffled order -/
def intraPair (L : List Nat) (i : Nat) : Pair :=
  ⟨L.getD (2 * i) 0, if 2 * i + 1 < L.length then L.getD (2 * i + 1) 0 else L.getD 0 0,
    if L.length % 2 = 0 then 1 else if i = 0 ∨ i + 1 = (L.length + 1) / 2 then 1 / 2 else 1,
    (2 * ((L.length + 1) / 2) - 1 : Nat)⟩

theorem intraLoop_eq (live : Nat → Bool) (idx : List Nat) (L : List Nat)
    (hLe : (positions live idx.length).map (fun j => idx.getD j 0) = L) (hL : 2 ≤ L.length) (k i : Nat)
    (hk : i + k = (L.length + 1) / 2) (s : IntraSt) (hs : s.ipair = i)
    (hs2 : 0 < k → s.ip2 = if 2 * i = 0 then (-1 : Int) else pos live idx.length (2 * i - 1)) :
    intraLoop live idx idx.length L.length k s = some ((List.range' i k).map (intraPair L)) := by
  have hlen : npos live idx.length = L.length := by rw [← hLe]; simp [npos]
  have hnp : intraPairs L.length = (L.length + 1) / 2 := if_pos hL
  induction k generalizing i s with
  | zero => rfl
  | succ k ih =>
    have hs2 := hs2 (by omega)
    have hp0 : 2 * i < npos live idx.length := by omega
    have h1 : search live (s.ip2 + 1) idx.length s.ip1 = pos live idx.length (2 * i) := search_next hp0 hs2
    have hev : intraEven L.length = (L.length % 2 == 0) := if_pos hL
    have hfwd : 2 * i + 1 < L.length → search live (pos live idx.length (2 * i) + 1) idx.length s.ip2 =
        pos live idx.length (2 * i + 1) := by
      intro h
      exact search_next (by omega) (by rw [if_neg (by omega)]; rfl)
    have hback : ¬ 2 * i + 1 < L.length → search live 0 (pos live idx.length (2 * i) : Nat) s.ip2 =
        pos live idx.length 0 := by
      intro h
      have := pos_lt (live := live) (n := idx.length) (m := 0) (m' := 2 * i) (by omega) hp0
      exact search_pos (by omega) (by omega) (by omega) (by omega) (by omega)
    have h2 : (if intraEven L.length then search live (pos live idx.length (2 * i) + 1) idx.length s.ip2
        else if s.ipair + 1 < intraPairs L.length then search live (pos live idx.length (2 * i) + 1) idx.length s.ip2
        else search live 0 (pos live idx.length (2 * i) : Nat) s.ip2) =
        (pos live idx.length (if 2 * i + 1 < L.length then 2 * i + 1 else 0) : Int) := by
      rw [hev, hs, hnp]
      by_cases he : L.length % 2 = 0
      · have hlt : 2 * i + 1 < L.length := by omega
        rw [if_pos (by simpa using he), if_pos hlt, hfwd hlt]
      · rw [if_neg (by simpa using he)]
        by_cases hl : i + 1 < (L.length + 1) / 2
        · have hlt : 2 * i + 1 < L.length := by omega
          rw [if_pos hl, if_pos hlt, hfwd hlt]
        · have hlt : ¬ 2 * i + 1 < L.length := by omega
          rw [if_neg hl, if_neg hlt, hback hlt]
    have hLi : ∀ m < npos live idx.length, at? idx (pos live idx.length m : Nat) = some (L.getD m 0) := by
      intro m h
      rw [at?_pos h, hLe]
    have hnext : intraNext live idx idx.length L.length s = some (intraPair L i,
        ⟨pos live idx.length (2 * i), pos live idx.length (if 2 * i + 1 < L.length then 2 * i + 1 else 0), i + 1⟩) := by
      unfold intraNext
      dsimp only
      rw [h1, h2, hLi _ hp0, Option.bind_some, hLi _ (by split <;> omega), Option.bind_some, hev, hs, hnp]
      have ew : (if (L.length % 2 == 0) = true then (1 : ℚ) else if i = 0 ∨ i + 1 = (L.length + 1) / 2 then 1 / 2 else 1) =
          if L.length % 2 = 0 then 1 else if i = 0 ∨ i + 1 = (L.length + 1) / 2 then 1 / 2 else 1 := by
        by_cases he : L.length % 2 = 0
        · rw [if_pos (by simpa using he), if_pos he]
        · rw [if_neg (by simpa using he), if_neg he]
      have ed : intraDt L.length = 2 * ((L.length + 1) / 2) - 1 := by unfold intraDt; rw [if_pos hL, hnp]
      have ei : L.getD (if 2 * i + 1 < L.length then 2 * i + 1 else 0) 0 =
          if 2 * i + 1 < L.length then L.getD (2 * i + 1) 0 else L.getD 0 0 := by split <;> rfl
      rw [ew, ed, ei]
      rfl
    rw [intraLoop, hnext, Option.bind_some, ih (i + 1) (by omega) _ rfl (by
      intro hk0
      show (pos live idx.length (if 2 * i + 1 < L.length then 2 * i + 1 else 0) : Int) = _
      rw [if_pos (by omega), if_neg (by omega)]
      rfl), Option.map_some, List.range'_succ]
    rfl

/-- the pairs of one cell, explicitly -/
theorem intra_eq {dead : Nat → Bool} {start stop : Nat} {idx : List Nat} (h : Shuffled start stop idx) :
    intra dead start stop idx = some ((List.range (intraPairs (idx.filter fun i => !dead i).length)).map
      (intraPair (idx.filter fun i => !dead i))) := by
  unfold intra
  dsimp only
  rw [nLive_shuffled h, ← h.length]
  by_cases hL : 2 ≤ (idx.filter fun i => !dead i).length
  · have hnp : intraPairs (idx.filter fun i => !dead i).length = ((idx.filter fun i => !dead i).length + 1) / 2 := if_pos hL
    have := intraLoop_eq (liveAt dead idx) idx _ (lives_eq dead idx) hL (intraPairs (idx.filter fun i => !dead i).length) 0
      (by omega) ⟨-1, -1, 0⟩ rfl fun _ => rfl
    rw [← List.range_eq_range'] at this
    exact this
  · have : intraPairs (idx.filter fun i => !dead i).length = 0 := if_neg hL
    rw [this]; rfl

/-! ## between two species -/

/-- the weight correction of the `i`-th pair -/
def interW (nS nC i : Nat) : ℚ := if i % nC < nS % nC then 1 / ((nS / nC : Nat) + 1) else 1 / (nS / nC : Nat)

theorem interLoop_eq (liveS liveC : Nat → Bool) (idx : List Nat) (startC nbufC : Nat) (LS LC : List Nat)
    (hS : (positions liveS idx.length).map (fun j => idx.getD j 0) = LS)
    (hC : (positions liveC nbufC).map (startC + ·) = LC) (hC0 : 0 < LC.length) (k i : Nat) (hk : i + k = LS.length)
    (s : InterSt) (hs : s.ipair = i)
    (hsS : s.ipS = if i = 0 then (-1 : Int) else pos liveS idx.length (i - 1))
    (hsC : i % LC.length ≠ 0 → s.ipC = pos liveC nbufC (i % LC.length - 1)) :
    interLoop liveS liveC idx startC idx.length nbufC LS.length LC.length k s =
      some ((List.range' i k).map fun i => (LS.getD i 0, LC.getD (i % LC.length) 0, interW LS.length LC.length i)) := by
  have hlS : npos liveS idx.length = LS.length := by rw [← hS]; simp [npos]
  have hlC : npos liveC nbufC = LC.length := by rw [← hC]; simp [npos]
  induction k generalizing i s with
  | zero => rfl
  | succ k ih =>
    have hpS : i < npos liveS idx.length := by omega
    have hr : i % LC.length < LC.length := Nat.mod_lt i hC0
    have hpC : i % LC.length < npos liveC nbufC := by omega
    have h1 : search liveS (s.ipS + 1) idx.length s.ipS = pos liveS idx.length i := search_next hpS hsS
    have h2 : search liveC (((if s.ipair % LC.length = 0 then (-1 : Int) else s.ipC) + 1) % (nbufC : Int)) nbufC
        (if s.ipair % LC.length = 0 then (-1 : Int) else s.ipC) = pos liveC nbufC (i % LC.length) := by
      rw [hs]
      have hlast := (pos_live hpC).2
      have e : ((if i % LC.length = 0 then (-1 : Int) else s.ipC) + 1) % (nbufC : Int) =
          (if i % LC.length = 0 then (-1 : Int) else s.ipC) + 1 := by
        by_cases h0 : i % LC.length = 0
        · rw [if_pos h0]; simp
        · rw [if_neg h0, hsC h0]
          have hlt := pos_lt (live := liveC) (n := nbufC) (m := i % LC.length - 1) (m' := i % LC.length) (by omega) hpC
          apply Int.emod_eq_of_lt <;> omega
      rw [e]
      apply search_next hpC
      by_cases h0 : i % LC.length = 0
      · rw [if_pos h0, if_pos h0]
      · rw [if_neg h0, if_neg h0, hsC h0]
    have hLS : at? idx (pos liveS idx.length i : Nat) = some (LS.getD i 0) := by rw [at?_pos hpS, hS]
    have hLC : startC + pos liveC nbufC (i % LC.length) = LC.getD (i % LC.length) 0 := by
      have hh : i % LC.length < (positions liveC nbufC).length := hpC
      rw [pos_eq hpC, List.getD_eq_getElem _ _ hr]
      simp only [← hC, List.getElem_map, List.length_map]
    have hnext : interNext liveS liveC idx startC idx.length nbufC LS.length LC.length s =
        some ((LS.getD i 0, LC.getD (i % LC.length) 0, interW LS.length LC.length i),
          ⟨pos liveS idx.length i, pos liveC nbufC (i % LC.length), i + 1⟩) := by
      unfold interNext
      dsimp only
      rw [h1, h2, if_neg (by omega), hLS, Option.bind_some, hs, Int.toNat_natCast, hLC]
      rfl
    rw [interLoop, hnext, Option.bind_some, ih (i + 1) (by omega) _ rfl (by rw [if_neg (by omega)]; rfl) (by
      intro h
      show (pos liveC nbufC (i % LC.length) : Int) = _
      have e : (i + 1) % LC.length - 1 = i % LC.length := by
        have := Nat.add_mod_eq_ite (m := i) (n := 1) (k := LC.length)
        by_cases h1 : LC.length = 1
        · rw [h1] at h; omega
        · rw [Nat.mod_eq_of_lt (show 1 < LC.length by omega)] at this
          by_cases h2 : LC.length ≤ i % LC.length + 1
          · rw [if_pos h2] at this; omega
          · rw [if_neg h2] at this; omega
      rw [e]), Option.map_some, List.range'_succ]
    rfl

/-- living particles of a cell in the order of the array -/
theorem cyclic_eq (dead : Nat → Bool) (start n : Nat) :
    (positions (fun j => !dead (start + j)) n).map (start + ·) = (List.range' start n).filter fun i => !dead i := by
  unfold positions
  rw [List.range'_eq_map_range, List.filter_map]
  rfl

end Verif.Pairing
