import Verif.Proofs.Causal
/-!
# The laws of the undivided simulations look at near cells and particles only
-/
namespace Verif.Causal
open Verif.Maxwell Verif.Pusher Verif.Deposit Verif.Shape Verif.WholeRun Verif.Symmetry
open Finset (range)

/-! ## fields seen -/

theorem sample_near {s X : ℚ} {f g : ℤ → ℚ} (hs : s = 0 ∨ s = 1 / 2) (h : ∀ m : ℤ, |(m : ℚ) - X| ≤ 2 → f m = g m) : sample s X f = sample s X g := by
  unfold sample
  refine finsum_congr fun m => ?_
  by_cases hm : |X - (m + s)| ≤ 3 / 2
  · rw [h m ?_]
    rw [abs_le] at hm ⊢
    rcases hs with rfl | rfl <;> constructor <;> linarith [hm.1, hm.2]
  · have : shape (X - (m + s)) = 0 := by
      unfold shape
      rw [if_neg (fun hh => hm (hh.trans (by norm_num))), if_neg hm]
    rw [this, zero_mul, zero_mul]

theorem sample2_near {s t X Y : ℚ} {f g : ℤ → ℤ → ℚ} (hs : s = 0 ∨ s = 1 / 2) (ht : t = 0 ∨ t = 1 / 2)
    (h : ∀ m n : ℤ, |(m : ℚ) - X| ≤ 2 → |(n : ℚ) - Y| ≤ 2 → f m n = g m n) : sample2 s t X Y f = sample2 s t X Y g :=
  sample_near hs fun m hm => sample_near ht fun n hn => h m n hm hn

theorem sample3_near {s t u X Y Z : ℚ} {f g : ℤ → ℤ → ℤ → ℚ} (hs : s = 0 ∨ s = 1 / 2) (ht : t = 0 ∨ t = 1 / 2) (hu : u = 0 ∨ u = 1 / 2)
    (h : ∀ m n l : ℤ, |(m : ℚ) - X| ≤ 2 → |(n : ℚ) - Y| ≤ 2 → |(l : ℚ) - Z| ≤ 2 → f m n l = g m n l) :
    sample3 s t u X Y Z f = sample3 s t u X Y Z g :=
  sample_near hs fun m hm => sample2_near ht hu fun n l hn hl => h m n l hm hn hl

theorem see_near2 (d : Fin 2 → ℚ) (G G' : GF 2) (x : Fin 2 → ℚ)
    (h : ∀ c : Fin 2 → Int, (∀ a, |(c a : ℚ) - x a / d a| ≤ 2) → ∀ f, G.e f c = G'.e f c ∧ G.b f c = G'.b f c) :
    see2 d G x = see2 d G' x := by
  have key : ∀ m n : ℤ, |(m : ℚ) - x 0 / d 0| ≤ 2 → |(n : ℚ) - x 1 / d 1| ≤ 2 → ∀ f, G.e f ![m, n] = G'.e f ![m, n] ∧ G.b f ![m, n] = G'.b f ![m, n] :=
    fun m n hm hn f => h ![m, n] (fun a => match a with | 0 => hm | 1 => hn) f
  unfold see2
  dsimp only
  have z : (0 : ℚ) = 0 ∨ (0 : ℚ) = 1 / 2 := .inl rfl
  have w : (1 / 2 : ℚ) = 0 ∨ (1 / 2 : ℚ) = 1 / 2 := .inr rfl
  congr 1
  · exact sample2_near w z fun m n hm hn => (key m n hm hn 0).1
  · exact sample2_near z w fun m n hm hn => (key m n hm hn 1).1
  · exact sample2_near z z fun m n hm hn => (key m n hm hn 2).1
  · exact sample2_near z w fun m n hm hn => (key m n hm hn 0).2
  · exact sample2_near w z fun m n hm hn => (key m n hm hn 1).2
  · exact sample2_near w w fun m n hm hn => (key m n hm hn 2).2

theorem see_near3 (d : Fin 3 → ℚ) (G G' : GF 3) (x : Fin 3 → ℚ)
    (h : ∀ c : Fin 3 → Int, (∀ a, |(c a : ℚ) - x a / d a| ≤ 2) → ∀ f, G.e f c = G'.e f c ∧ G.b f c = G'.b f c) :
    see3 d G x = see3 d G' x := by
  have key : ∀ m n l : ℤ, |(m : ℚ) - x 0 / d 0| ≤ 2 → |(n : ℚ) - x 1 / d 1| ≤ 2 → |(l : ℚ) - x 2 / d 2| ≤ 2 →
      ∀ f, G.e f ![m, n, l] = G'.e f ![m, n, l] ∧ G.b f ![m, n, l] = G'.b f ![m, n, l] :=
    fun m n l hm hn hl f => h ![m, n, l] (fun a => match a with | 0 => hm | 1 => hn | 2 => hl) f
  unfold see3
  dsimp only
  have z : (0 : ℚ) = 0 ∨ (0 : ℚ) = 1 / 2 := .inl rfl
  have w : (1 / 2 : ℚ) = 0 ∨ (1 / 2 : ℚ) = 1 / 2 := .inr rfl
  congr 1
  · exact sample3_near w z z fun m n l hm hn hl => (key m n l hm hn hl 0).1
  · exact sample3_near z w z fun m n l hm hn hl => (key m n l hm hn hl 1).1
  · exact sample3_near z z w fun m n l hm hn hl => (key m n l hm hn hl 2).1
  · exact sample3_near z w w fun m n l hm hn hl => (key m n l hm hn hl 0).2
  · exact sample3_near w z w fun m n l hm hn hl => (key m n l hm hn hl 1).2
  · exact sample3_near w w z fun m n l hm hn hl => (key m n l hm hn hl 2).2

/-! ## currents -/

theorem proj_far {N : Nat} (hN : 0 < N) {i0 m c : Int} (hi : |i0 - m| ≤ 1) (h : ¬ ∃ δ : Int, |δ| ≤ 3 ∧ c ≡ m + δ [ZMOD N]) (f : Nat → ℚ) :
    proj (wrapIdx N i0) f (c % N) = 0 := by
  unfold proj
  refine Finset.sum_eq_zero fun i hi5 => if_neg fun he => h ?_
  rw [wrapIdx_eq N hN] at he
  have : i < 5 := Finset.mem_range.mp hi5
  refine ⟨i0 + ((i : Int) - 2) - m, ?_, ?_⟩
  · rw [abs_le] at hi ⊢
    constructor <;> omega
  · show c % N = (m + (i0 + ((i : Int) - 2) - m)) % N
    rw [add_sub_cancel, he]

theorem line_far {N : Nat} (hN : 0 < N) {d dt x v : ℚ} (hd : 0 < d) (hv : |v * dt| ≤ d) {c : Int}
    (h : ¬ ∃ δ : Int, |δ| ≤ 3 ∧ c ≡ ⌊x / d + 1 / 2⌋ + δ [ZMOD N]) : l0 N d dt x v c = 0 ∧ l1 N d dt x v c = 0 ∧ lc N d dt x v c = 0 := by
  have hi : |(mkAxRef ((x - v * (1 / 2) * dt) / d) ((x + v * (1 / 2) * dt) / d)).i0 - ⌊x / d + 1 / 2⌋| ≤ 1 := by
    show |⌊(x - v * (1 / 2) * dt) / d + 1 / 2⌋ - ⌊x / d + 1 / 2⌋| ≤ (1 : Nat)
    apply floor_near
    have : (x - v * (1 / 2) * dt) / d + 1 / 2 - (x / d + 1 / 2) = -(v * dt / d / 2) := by ring
    have h2 : |v * dt / d| ≤ 1 := by
      rw [abs_div, abs_of_pos hd]
      exact (div_le_one hd).mpr hv
    rw [this, abs_neg]
    rw [abs_le] at h2 ⊢
    push_cast
    constructor <;> linarith [h2.1, h2.2]
  exact ⟨proj_far hN hi h _, proj_far hN hi h _, proj_far hN hi h _⟩

theorem lm_far {N : Nat} {d dt x v : ℚ} {c : Int} (h : l0 N d dt x v c = 0 ∧ l1 N d dt x v c = 0 ∧ lc N d dt x v c = 0) : lm N d dt x v c = 0 := by
  unfold lm; rw [h.1, h.2.1]; ring

open Classical in
theorem total_within {k : Nat} {d : Fin k → ℚ} {R : (Fin k → Int) → Prop} {h : ℚ → Ptc k → ℚ} {cl : List (Kind × List (Ptc k))}
    (H : ∀ s ∈ cl, ∀ p ∈ s.2, ¬ R (cellOf d p.pos) → h s.1.q p = 0) : total h cl = total h (within d R cl) := by
  unfold total within
  rw [List.map_map]
  congr 1
  refine List.map_congr_left fun s hs => ?_
  show _ = ((s.2.filter _).map _).sum
  have H' := H s hs
  generalize s.2 = l at H'
  induction l with
  | nil => rfl
  | cons p l ih =>
    rw [List.filter_cons, List.map_cons, List.sum_cons, ih fun q hq => H' q (List.mem_cons_of_mem _ hq)]
    by_cases hR : R (cellOf d p.pos)
    · rw [if_pos (by simpa using hR), List.map_cons, List.sum_cons]
    · rw [if_neg (by simpa using hR), H' p List.mem_cons_self hR, zero_add]

/-- a particle outside of a region is far along some axis from the cells that are three cells inside -/
theorem far_axis {k : Nat} {N : Fin k → Nat} {R : (Fin k → Int) → Prop} (hR : Region N R) {c m : Fin k → Int} (hc : inner 3 R c) (hm : ¬ R m) :
    ∃ a, ¬ ∃ δ : Int, |δ| ≤ 3 ∧ c a ≡ m a + δ [ZMOD N a] := by
  by_contra hcon
  push Not at hcon
  choose δ h1 h2 using hcon
  refine hm ((hR (fun a => c a - δ a) m fun a => ?_).mp (hc _ fun a => ?_))
  · have := (h2 a).sub_right (δ a)
    rwa [add_sub_cancel_right] at this
  · show |c a - δ a - c a| ≤ (3 : Nat)
    rw [sub_right_comm, sub_self, zero_sub, abs_neg]
    exact h1 a

theorem cur_near2 {N : Fin 2 → Nat} (hN : ∀ a, 0 < N a) {d : Fin 2 → ℚ} (hd : ∀ a, 0 < d a) {dt : ℚ} (hdt : dt ≠ 0)
    {cl : List (Kind × List (Ptc 2))} (hv : Slow d dt cl) {R : (Fin 2 → Int) → Prop} (hR : Region N R) (f : Fin 3) {c : Fin 2 → Int}
    (hc : inner 3 R c) : cur2 N d dt cl f c = cur2 N d dt (within d R cl) f c := by
  rw [cur_total2 hN hd hdt hv, cur_total2 hN hd hdt (within_slow hv)]
  refine total_within fun s hs p hp hout => ?_
  obtain ⟨a, ha⟩ := far_axis hR hc hout
  unfold j2
  match a with
  | 0 =>
    have h := line_far (hN 0) (hd 0) (show |p.mom.vx * dt| ≤ d 0 from hv s hs p hp 0) ha
    have hm := lm_far h
    match f with
    | 0 => dsimp only; rw [h.2.2]; ring
    | 1 => dsimp only; rw [hm]; ring
    | 2 => dsimp only; rw [hm, h.1, h.2.1]; ring
  | 1 =>
    have h := line_far (hN 1) (hd 1) (show |p.mom.vy * dt| ≤ d 1 from hv s hs p hp 1) ha
    have hm := lm_far h
    match f with
    | 0 => dsimp only; rw [hm]; ring
    | 1 => dsimp only; rw [h.2.2]; ring
    | 2 => dsimp only; rw [hm, h.1, h.2.1]; ring

theorem cur_near3 {N : Fin 3 → Nat} (hN : ∀ a, 2 ≤ N a) {d : Fin 3 → ℚ} (hd : ∀ a, 0 < d a) {dt : ℚ} (hdt : dt ≠ 0)
    {cl : List (Kind × List (Ptc 3))} (hv : Slow d dt cl) {R : (Fin 3 → Int) → Prop} (hR : Region N R) (f : Fin 3) {c : Fin 3 → Int}
    (hc : inner 3 R c) : cur3 N d dt cl f c = cur3 N d dt (within d R cl) f c := by
  have hN' : ∀ a, 0 < N a := fun a => lt_of_lt_of_le (by omega) (hN a)
  rw [cur_total3 hN hd hdt hv, cur_total3 hN hd hdt (within_slow hv)]
  refine total_within fun s hs p hp hout => ?_
  obtain ⟨a, ha⟩ := far_axis hR hc hout
  unfold j3 tw
  match a with
  | 0 =>
    have h := line_far (hN' 0) (hd 0) (show |p.mom.vx * dt| ≤ d 0 from hv s hs p hp 0) ha
    match f with
    | 0 => dsimp only; rw [h.2.2]; ring
    | 1 => dsimp only; rw [h.1, h.2.1]; ring
    | 2 => dsimp only; rw [h.1, h.2.1]; ring
  | 1 =>
    have h := line_far (hN' 1) (hd 1) (show |p.mom.vy * dt| ≤ d 1 from hv s hs p hp 1) ha
    match f with
    | 0 => dsimp only; rw [h.1, h.2.1]; ring
    | 1 => dsimp only; rw [h.2.2]; ring
    | 2 => dsimp only; rw [h.1, h.2.1]; ring
  | 2 =>
    have h := line_far (hN' 2) (hd 2) (show |p.mom.vz * dt| ≤ d 2 from hv s hs p hp 2) ha
    match f with
    | 0 => dsimp only; rw [h.1, h.2.1]; ring
    | 1 => dsimp only; rw [h.1, h.2.1]; ring
    | 2 => dsimp only; rw [h.2.2]; ring

theorem near2 {np n : Fin 2 → Nat} (hN : ∀ a, 0 < np a * n a) {d : Fin 2 → ℚ} (hd : ∀ a, 0 < d a) {c2 eps0 dt : ℚ} (hdt : dt ≠ 0) (rs : ℚ → ℚ) :
    Near (phys2 (fun a => np a * n a) d c2 eps0 dt rs) np n d :=
  ⟨localFE2 _, localFB2 _, see_near2 d, fun _ _ _ hp h => see_congr2 hd hp h,
    fun _ hv _ hR f _ hc => cur_near2 hN hd hdt hv hR f hc, fun _ _ hab hv => cur_congr2 hN hd hdt hab hv⟩

theorem near3 {np n : Fin 3 → Nat} (hN : ∀ a, 2 ≤ np a * n a) {d : Fin 3 → ℚ} (hd : ∀ a, 0 < d a) {c2 eps0 dt : ℚ} (hdt : dt ≠ 0) (rs : ℚ → ℚ) :
    Near (phys3 (fun a => np a * n a) d c2 eps0 dt rs) np n d :=
  ⟨localFE3 _, localFB3 _, see_near3 d, fun _ _ _ hp h => see_congr3 hd hp h,
    fun _ hv _ hR f _ hc => cur_near3 hN hd hdt hv hR f hc, fun _ _ hab hv => cur_congr3 hN hd hdt hab hv⟩

end Verif.Causal
